import Verif.Proof.ArrayWriter
/-! # The WKT writer in kernels: options stay -/
namespace Verif
open Spec

def KeepsO {α : Type} (m : M WktW α) : Prop := ∀ s s', (m s).state? = some s' → SameOptions s s'

theorem sameOptions_rfl (s : WktW) : SameOptions s s := ⟨rfl, rfl, rfl⟩

theorem keepsO_pure {α : Type} (x : α) : KeepsO (pure x : M WktW α) := by
  intro s s' h; cases h; exact sameOptions_rfl _
theorem keepsO_fail {α : Type} (rc : Code) : KeepsO (M.fail rc : M WktW α) := by
  intro s s' h; cases h; exact sameOptions_rfl _
theorem keepsO_undef {α : Type} : KeepsO (M.undef : M WktW α) := by
  intro s s' h; cases h
theorem keepsO_get : KeepsO (M.get : M WktW WktW) := by
  intro s s' h; cases h; exact sameOptions_rfl _
theorem keepsO_modify {f : WktW → WktW} (hf : ∀ s, SameOptions s (f s)) : KeepsO (M.modify f) := by
  intro s s' h; cases h; exact hf _
theorem keepsO_bind {α β : Type} {m : M WktW α} {f : α → M WktW β} (hm : KeepsO m) (hf : ∀ x, KeepsO (f x)) : KeepsO (m >>= f) := by
  intro b b' h
  rw [M.bind_run] at h
  cases hb : m b with
  | ok x s =>
    rw [hb] at h
    exact (hm b s (by rw [hb]; rfl)).trans (hf x s b' h)
  | err rc s =>
    rw [hb] at h
    cases h
    exact hm b _ (by rw [hb]; rfl)
  | ub => rw [hb] at h; cases h
theorem keepsO_ite {α : Type} {c : Prop} [Decidable c] {m m' : M WktW α} (h : KeepsO m) (h' : KeepsO m') :
    KeepsO (if c then m else m') := by
  split <;> assumption
theorem keepsO_level (l : Nat) : KeepsO (levelEntry l : M WktW Unit) := by
  intro s s' h
  unfold levelEntry at h
  split at h
  · cases h; exact sameOptions_rfl _
  · cases h
theorem keepsO_check : KeepsO wktCheckLevel := by
  intro s s' h
  unfold wktCheckLevel at h
  split at h <;> cases h <;> exact sameOptions_rfl _
theorem keepsO_reserve (n : Nat) : KeepsO (wktReserve n) := by
  intro s s' h
  unfold wktReserve at h
  split at h <;> cases h <;> exact ⟨rfl, rfl, rfl⟩
theorem keepsO_unsafe (bs : List Byte) : KeepsO (wktUnsafe bs) := by
  intro s s' h
  unfold wktUnsafe at h
  split at h <;> cases h
  exact ⟨rfl, rfl, rfl⟩
theorem keepsO_write (bs : List Byte) : KeepsO (wktWrite bs) := keepsO_bind (keepsO_reserve _) fun _ => keepsO_unsafe _
theorem keepsO_double (print : Nat → Dbl → List Byte) (x : Dbl) : KeepsO (wktDouble print x) := by
  intro s s' h
  unfold wktDouble at h
  split at h <;> cases h
  exact ⟨rfl, rfl, rfl⟩
theorem keepsO_outer (l : Nat) : KeepsO (wktOuter l) := by
  intro s s' h
  unfold wktOuter at h
  split at h
  · exact keepsO_bind (keepsO_level _) (fun _ => keepsO_pure _) s s' h
  · cases h; exact sameOptions_rfl _
theorem keepsO_before {l : Nat} {z : M WktW Unit} (hz : KeepsO z) : KeepsO (wktBefore l z) :=
  keepsO_bind (keepsO_outer _) fun n => by
    cases n with
    | none => exact hz
    | some n => exact keepsO_ite (keepsO_write _) (keepsO_write _)
theorem keepsO_open (l gt : Nat) : KeepsO (wktOpen l gt) :=
  keepsO_bind (keepsO_level _) fun _ => keepsO_bind (keepsO_modify fun _ => ⟨rfl, rfl, rfl⟩) fun _ => keepsO_modify fun _ => ⟨rfl, rfl, rfl⟩
theorem keepsO_dims (dims : Nat) : KeepsO (wktDims dims) :=
  keepsO_ite (keepsO_pure _) (keepsO_ite (keepsO_write _) (keepsO_ite (keepsO_write _) (keepsO_ite (keepsO_write _) (keepsO_fail _))))
theorem keepsO_tag (gt dims : Nat) : KeepsO (wktTag gt dims) :=
  keepsO_ite (keepsO_fail _) (keepsO_bind (keepsO_write _) fun _ => keepsO_bind (keepsO_dims _) fun _ => keepsO_write _)
theorem keepsO_ordinates (print : Nat → Dbl → List Byte) : ∀ xs : List Dbl, KeepsO (wktOrdinates print xs)
  | [] => keepsO_pure _
  | x :: xs => keepsO_bind (keepsO_unsafe _) fun _ => keepsO_bind (keepsO_double _ _) fun _ => keepsO_ordinates print xs
theorem keepsO_coord (print : Nat → Dbl → List Byte) : ∀ xs : List Dbl, KeepsO (wktCoord print xs)
  | [] => keepsO_undef
  | x :: xs => keepsO_bind (keepsO_double _ _) fun _ => keepsO_ordinates print xs
theorem keepsO_more (print : Nat → Dbl → List Byte) (n : Nat) : ∀ cs : List (List Dbl), KeepsO (wktMore print n cs)
  | [] => keepsO_pure _
  | c :: cs => by
    intro s s' h
    unfold wktMore at h
    split at h
    · cases h; exact sameOptions_rfl _
    · exact keepsO_bind (keepsO_reserve _) (fun _ => keepsO_bind (keepsO_unsafe _) fun _ => keepsO_bind (keepsO_coord _ _) fun _ => keepsO_more print n cs) s s' h

theorem keepsO_handler (print : Nat → Dbl → List Byte) (e : Event) : KeepsO (wktHandler print e) := by
  cases e with
  | featStart =>
    intro s s' h
    change (wktFeatStart s).state? = some s' at h
    unfold wktFeatStart at h
    dsimp only at h
    split at h <;> cases h <;> exact ⟨rfl, rfl, rfl⟩
  | nullFeat => exact keepsO_modify fun _ => ⟨rfl, rfl, rfl⟩
  | geomStart gt dims =>
    exact keepsO_bind (keepsO_modify fun _ => ⟨rfl, rfl, rfl⟩) fun _ => keepsO_bind keepsO_check fun _ =>
      keepsO_bind (keepsO_before (keepsO_pure _)) fun _ => keepsO_bind keepsO_get fun _ =>
      keepsO_bind (keepsO_ite (keepsO_tag _ _) (keepsO_pure _)) fun _ => keepsO_open _ _
  | ringStart =>
    exact keepsO_bind (keepsO_modify fun _ => ⟨rfl, rfl, rfl⟩) fun _ => keepsO_bind keepsO_check fun _ =>
      keepsO_bind (keepsO_before (keepsO_write _)) fun _ => keepsO_open _ _
  | coords nv cs =>
    cases cs with
    | nil => exact keepsO_pure _
    | cons c rest =>
      exact keepsO_bind keepsO_check fun _ => keepsO_bind keepsO_get fun _ => keepsO_bind (keepsO_reserve _) fun _ =>
        keepsO_bind (keepsO_level _) fun _ =>
        keepsO_bind (keepsO_ite (keepsO_unsafe _) (keepsO_ite (keepsO_unsafe _) (keepsO_pure _))) fun _ =>
        keepsO_bind (keepsO_reserve _) fun _ => keepsO_bind (keepsO_coord _ _) fun _ => keepsO_bind (keepsO_more _ _ _) fun _ =>
        keepsO_modify fun _ => ⟨rfl, rfl, rfl⟩
  | ringEnd =>
    exact keepsO_bind keepsO_check fun _ => keepsO_bind (keepsO_level _) fun _ => keepsO_bind keepsO_get fun _ =>
      keepsO_bind (keepsO_modify fun _ => ⟨rfl, rfl, rfl⟩) fun _ => keepsO_ite (keepsO_write _) (keepsO_write _)
  | geomEnd =>
    exact keepsO_bind keepsO_check fun _ => keepsO_bind (keepsO_level _) fun _ => keepsO_bind keepsO_get fun _ =>
      keepsO_bind (keepsO_modify fun _ => ⟨rfl, rfl, rfl⟩) fun _ => keepsO_ite (keepsO_write _) (keepsO_ite (keepsO_write _) (keepsO_pure _))
  | featEnd =>
    intro s s' h
    change (wktFeatEnd s).state? = some s' at h
    unfold wktFeatEnd at h
    repeat' split at h
    all_goals first | (cases h; done) | (cases h; exact ⟨rfl, rfl, rfl⟩)

theorem keepsO_finish : KeepsO wktFinish := by
  intro s s' h
  unfold wktFinish at h
  split at h
  · cases h; exact sameOptions_rfl _
  · dsimp only at h
    split at h <;> cases h <;> exact ⟨rfl, rfl, rfl⟩

theorem wktFinish_fresh {s s' : WktW} {a : BinArray} (h : wktFinish s = .ok a s') : s'.core.Fresh := by
  unfold wktFinish at h
  split at h
  · cases h
  · dsimp only at h
    split at h <;> cases h
    exact ⟨rfl, rfl, rfl, rfl, rfl⟩

/-! ## To WKT -/

/-- The options of a writer. -/
def Options (p : Nat) (flat : Bool) (max : Int) (s : WktW) : Prop := s.precision = p ∧ s.flat = flat ∧ s.maxSize = max

theorem Options.keep {p : Nat} {flat : Bool} {max : Int} {s s' : WktW} (h : Options p flat max s) (hs : SameOptions s s') : Options p flat max s' :=
  ⟨hs.precision.trans h.1, hs.flat.trans h.2.1, hs.maxSize.trans h.2.2⟩

section
variable {parse : List Byte → Option Dbl} {print : Nat → Dbl → List Byte} {inType : Int} {h : Handler AWriter} {k : Kernel AWriter}

def WktK (print : Nat → Dbl → List Byte) (h : Handler AWriter) (s : AWriter) : Prop :=
  h = (fun e => onWkt (wktHandler print e)) ∧ ∃ (o : WktWriter) (b : WktW), s = ⟨none, some { o with priv := b }, none, 100003⟩ ∧ Options 16 true (-1) b

theorem wktK_event {e : Event} {s s' : AWriter} (hs : WktK print h s) (hr : (h e s).state? = some s') : WktK print h s' := by
  obtain ⟨rfl, o, b, rfl, ho⟩ := hs
  obtain ⟨b', h1, rfl⟩ := onWkt_state hr
  exact ⟨rfl, o, b', rfl, ho.keep (keepsO_handler print e b b' h1)⟩

theorem finish_wkt (junk : Nat → Byte) (x : WktWriter) :
    arrayWriterFinish junk ⟨none, some x, none, 100003⟩ =
      (do let a ← onWkt wktFinish; pure (AOut.bin a) : M AWriter AOut) ⟨none, some x, none, 100003⟩ := rfl

theorem asOf_wkt (hpe : parse [] = none) (hk : AsKernelOf parse print inType 100003 h k) : WktK print h k.vis := by
  induction hk with
  | start ho hs _ =>
    obtain ⟨rfl, rfl⟩ := start_wkt ho hs
    exact ⟨rfl, _, _, rfl, rfl, rfl, rfl⟩
  | push _ hp ih =>
    refine push_invariant (I := WktK print _) (fun e s s' => wktK_event) ?_ hpe ih hp
    rintro s s' ⟨rfl, o, b, rfl, ho⟩ hr
    rw [finish_wkt] at hr
    obtain ⟨b', h1, rfl⟩ := onWkt_state (wrap_state hr)
    exact ⟨rfl, o, b', rfl, ho.keep (keepsO_finish b b' h1)⟩

theorem asStart_wkt (hpe : parse [] = none) (hk : AsKernelStart parse print inType 100003 h k) :
    h = (fun e => onWkt (wktHandler print e)) ∧ ∃ (o : WktWriter) (b : WktW), k.vis = ⟨none, some { o with priv := b }, none, 100003⟩ ∧
      Options 16 true (-1) b ∧ b.core.Fresh := by
  cases hk with
  | start ho hs _ =>
    obtain ⟨rfl, rfl⟩ := start_wkt ho hs
    exact ⟨rfl, _, _, rfl, ⟨rfl, rfl, rfl⟩, wktInit_fresh _ _ _ _⟩
  | push hk hp =>
    have h0 := asOf_wkt hpe hk
    obtain ⟨r, s1, _, h4, h5, _⟩ := push_inv hp
    have hI : WktK print h s1 := visit_invariant (fun e s s' => wktK_event) hpe r 0 _ h0 (by rw [h4]; rfl)
    obtain ⟨h1, o, b, rfl, ho⟩ := hI
    rw [finish_wkt] at h5
    obtain ⟨a, h9, rfl⟩ := wrap_ok h5
    unfold onWkt at h9
    dsimp only at h9
    cases hf : wktFinish b with
    | ok a' b' =>
      rw [hf] at h9
      injection h9 with h9 h10
      exact ⟨h1, o, b', h10.symm, ho.keep (keepsO_finish b b' (by rw [hf]; rfl)), wktFinish_fresh hf⟩
    | err rc n2 => rw [hf] at h9; cases h9
    | ub => rw [hf] at h9; cases h9

theorem wkt_features (hp : ∀ n x, (print n x).length ≤ 40) {p : Nat} {flat : Bool} {max : Int} (hm : max < 0) :
    ∀ (fs : List (Option Geom)) (t : List Event), (∀ g, some g ∈ fs → g.WF ∧ g.Typed ∧ g.height ≤ 31) → FeaturesTrace fs t →
    ∀ {s : WktW} {els : List (Option (List Byte))}, s.core.Has els → Options p flat max s →
      (elemBytes (els ++ texts (wktText (print p) flat) fs)).length ≤ 2147483647 →
    ∃ s', feed (wktHandler print) t s = .ok () s' ∧ s'.core.Has (els ++ texts (wktText (print p) flat) fs)
  | [], t, _, ht, s, els, hs, _, _ => by cases ht; exact ⟨s, rfl, by simpa [texts] using hs⟩
  | f :: fs, t, hw, ht, s, els, hs, ho, hv => by
    obtain ⟨t1, t2, h1, h2, rfl⟩ := ht
    have he : els ++ texts (wktText (print p) flat) (f :: fs) = els ++ [f.map (wktText (print p) flat)] ++ texts (wktText (print p) flat) fs := by simp [texts]
    rw [he] at hv ⊢
    have hvals : s.values = elemBytes els := hs.values
    have hsv : s.values.length ≤ 2147483647 := by
      rw [hvals]
      rw [elemBytes_append, elemBytes_append, List.length_append, List.length_append] at hv
      omega
    have hstep : ∃ s1, feed (wktHandler print) t1 s = .ok () s1 ∧ s1.core.Has (els ++ [f.map (wktText (print p) flat)]) ∧ Options p flat max s1 := by
      cases f with
      | none =>
        cases h1
        obtain ⟨s1, l, r1, r2, r3, r4, r5, r6, r7, r8⟩ := wktNull_run print s hsv
        refine ⟨s1, r1, has_null hs ?_ r5 r4 r6 r7, ho.keep r8⟩
        have : els.length = s.length := hs.length.symm
        rw [this]
        show some s1.validity = (bitsAppendNull s.validity _).map some
        rw [r2, r3]; rfl
      | some g =>
        obtain ⟨a, b, c⟩ := hw g (by simp)
        obtain ⟨s1, r1, r2⟩ := feature_plain hp h1 a b c s hsv (by rw [ho.2.2]; exact hm)
        rw [ho.1, ho.2.1] at r2
        exact ⟨s1, r1, has_some hs r2.validity r2.offsets r2.values r2.length r2.nulls, ho.keep r2.options⟩
    obtain ⟨s1, a1, a2, a3⟩ := hstep
    obtain ⟨s2, b1, b2⟩ := wkt_features hp hm fs t2 (fun g hg => hw g (by simp [hg])) h2 a2 a3 hv
    refine ⟨s2, ?_, b2⟩
    rw [feed_append_ok (s' := s1) a1]
    exact b1

theorem asWkt_run (hp : ∀ n x, (print n x).length ≤ 40) (hpe : parse [] = none) (hE : ∀ w, parse (69 :: w) = none) {kind : ArrayKind}
    (hk : AsKernelStart parse print kind.id 100003 h k) {a : AArray} {r : AReader}
    (hs : arrayReaderSetArray a k.reader = .ok () r) {fs : List (Option Geom)} (hf : kind.Features parse a fs)
    (hty : ∀ x, some x ∈ fs → x.Typed ∧ x.height ≤ 31) (hn : (elemBytes (texts (wktText (print 16) true) fs)).length ≤ 2147483647)
    (junk : Nat → Byte) (scratch : Int → WktR × WkbR) :
    ∃ k', asGeoarrowPush h junk parse scratch a k = .ok (.bin (canonArray (texts (wktText (print 16) true) fs))) k' := by
  obtain ⟨rfl, o, b, h1, h2, h2'⟩ := asStart_wkt hpe hk
  obtain ⟨t, ht, hb⟩ := features_visit hpe hE (asOf_reader (asStart_of hk)) hs hf
  have hw := features_wf hpe hE hf
  obtain ⟨b1, hr, h3⟩ := wkt_features hp (by decide) fs t (fun x hx => ⟨hw x hx, hty x hx⟩) ht (has_fresh.mpr h2') h2 (by simpa using hn)
  rw [List.nil_append] at h3
  obtain ⟨b2, hfin, _⟩ := wktFinish_run h3 (by have : b1.values = _ := h3.values; rw [this]; exact hn)
  have hfeed := feed_wkt hr none o none 100003
  rw [← h1] at hfeed
  have hfinish : arrayWriterFinish junk ⟨none, some { o with priv := b1 }, none, 100003⟩ =
      .ok (.bin (canonArray (texts (wktText (print 16) true) fs))) ⟨none, some { o with priv := b2 }, none, 100003⟩ := by
    rw [finish_wkt]
    have : onWkt wktFinish ⟨none, some { o with priv := b1 }, none, 100003⟩ =
        .ok (canonArray (texts (wktText (print 16) true) fs)) ⟨none, some { o with priv := b2 }, none, 100003⟩ := by
      unfold onWkt
      dsimp only
      rw [hfin]
    rw [M.bind_ok this]
    rfl
  exact ⟨_, push_ok hs hb hfeed hfinish⟩
end

/-! ## format_wkt -/

/-- The loop over features: each is visited by itself. -/
theorem kernelLoop_features {σ : Type} (hd : Handler σ) {parse : List Byte → Option Dbl} (hpe : parse [] = none) (hE : ∀ w, parse (69 :: w) = none)
    {kind : ArrayKind} {r0 r : AReader} (hr : ReaderOf kind.id r0) {a : AArray} (hs : arrayReaderSetArray a r0 = .ok () r)
    (scratch : Int → WktR × WkbR) : ∀ (fs : List (Option Geom)) (i : Nat),
      (∀ (j : Nat) f, fs[j]? = some f → kind.SlotAt parse a (i + j) f) →
      ∃ ts : List (List Event), ts.length = fs.length ∧ (∀ (j : Nat) f t, fs[j]? = some f → ts[j]? = some t → OptFeatureTrace f t) ∧
        ∀ s : σ, kernelLoop hd parse scratch r fs.length i s =
          (ts.foldr (fun t m => do visitByFeature hd (feed hd t); m) (pure ()) : M σ Unit) s
  | [], i, _ => ⟨[], rfl, by simp, fun _ => rfl⟩
  | f :: fs, i, hf => by
    obtain ⟨t, h1, h2⟩ := batch_visit hpe hE kind hr hs (scratch i).1 (scratch i).2 i [f] (fun j f' hj => by
      cases j with
      | zero => exact hf 0 f' hj
      | succ j => simp at hj)
    obtain ⟨t1, t2, h3, h4, rfl⟩ := h1
    cases h4
    rw [List.append_nil] at h2
    obtain ⟨ts, h5, h6, h7⟩ := kernelLoop_features hd hpe hE hr hs scratch fs (i + 1) (fun j f' hj => by
      have := hf (j + 1) f' hj
      rwa [show i + (j + 1) = i + 1 + j by omega] at this)
    refine ⟨t1 :: ts, by simp [h5], ?_, fun s => ?_⟩
    · intro j f' t hj ht
      cases j with
      | zero => cases hj; cases ht; exact h3
      | succ j => exact h6 j f' t hj ht
    · have e : arrayReaderVisit hd parse (r.after (scratch i)) i 1 = feed hd t1 := by
        funext s
        refine (h2 σ hd s).trans ?_
        unfold replay
        cases feed hd t1 s with
        | ok u s' => cases u; rfl
        | err rc s' => rfl
        | ub => rfl
      show (do visitByFeature hd (arrayReaderVisit hd parse (r.after (scratch i)) i 1); kernelLoop hd parse scratch r fs.length ((i : Int) + 1)) s = _
      rw [e, List.foldr_cons]
      have : kernelLoop hd parse scratch r fs.length ((i : Int) + 1) = (ts.foldr (fun t m => do visitByFeature hd (feed hd t); m) (pure ()) : M σ Unit) :=
        funext h7
      rw [this]

theorem runWkt_foldr (print : Nat → Dbl → List Byte) : ∀ ts : List (List Event),
    ts.foldr (fun t m => do visitByFeature (wktHandler print) (feed (wktHandler print) t); m) (pure ()) = runWkt print ts
  | [] => rfl
  | t :: ts => by
    rw [List.foldr_cons, runWkt_foldr print ts]
    rfl

theorem wktFeatures_of : ∀ (fs : List (Option Geom)) (ts : List (List Event)), ts.length = fs.length →
    (∀ (j : Nat) f t, fs[j]? = some f → ts[j]? = some t → OptFeatureTrace f t) → (∀ g, some g ∈ fs → g.WF ∧ g.Typed ∧ g.height ≤ 31) →
    WktFeatures ts fs
  | [], [], _, _, _ => rfl
  | [], t :: ts, h, _, _ => by simp at h
  | f :: fs, [], h, _, _ => by simp at h
  | f :: fs, t :: ts, h, h1, h2 => by
    refine ⟨f, fs, rfl, ?_, wktFeatures_of fs ts (by simpa using h) (fun j f' t' hf ht => h1 (j + 1) f' t' hf ht) fun g hg => h2 g (by simp [hg])⟩
    have h3 := h1 0 f t rfl rfl
    cases f with
    | none => cases h3; exact .null
    | some g =>
      obtain ⟨a, b, c⟩ := h2 g (by simp)
      exact .feature h3 a b c

section
variable {σ α : Type} {hd : Handler σ} {finish : M σ α} {parse : List Byte → Option Dbl} {scratch : Int → WktR × WkbR} {a : AArray}
  {k k' : Kernel σ}

theorem pushF_eq {r : AReader} (hs : arrayReaderSetArray a k.reader = .ok () r) :
    kernelPushByFeature hd finish parse scratch a k =
      onVis (r.after (scratch a.length)) (do kernelLoop hd parse scratch r a.length.toNat 0; finish) ⟨r, k.vis⟩ := by
  unfold kernelPushByFeature
  rw [M.bind_ok (kernelSetArray_ok hs), M.bind_run, M.get_run]

theorem visitByFeature_invariant {I : σ → Prop} (hI : ∀ e s s', I s → (hd e s).state? = some s' → I s') (hpe : parse [] = none)
    (r : AReader) (i n : Int) {s s' : σ} (h0 : I s) (hr : (visitByFeature hd (arrayReaderVisit hd parse r i n) s).state? = some s') : I s' := by
  unfold visitByFeature at hr
  cases hv : arrayReaderVisit hd parse r i n s with
  | ok u s1 =>
    rw [hv] at hr
    cases hr
    exact visit_invariant hI hpe r i n h0 (by rw [hv]; rfl)
  | err rc s1 =>
    rw [hv] at hr
    have h1 := visit_invariant hI hpe r i n h0 (s' := s1) (by rw [hv]; rfl)
    dsimp only at hr
    split at hr
    · exact hI _ _ _ h1 hr
    · cases hr; exact h1
  | ub => rw [hv] at hr; cases hr

theorem loop_invariant {I : σ → Prop} (hI : ∀ e s s', I s → (hd e s).state? = some s' → I s') (hpe : parse [] = none) (r : AReader) :
    ∀ (n : Nat) (i : Int) (s s' : σ), I s → (kernelLoop hd parse scratch r n i s).state? = some s' → I s'
  | 0, i, s, s', h0, hr => by cases hr; exact h0
  | n + 1, i, s, s', h0, hr => by
    unfold kernelLoop at hr
    rw [M.bind_run] at hr
    cases hv : visitByFeature hd (arrayReaderVisit hd parse (r.after (scratch i)) i 1) s with
    | ok u s1 =>
      rw [hv] at hr
      exact loop_invariant hI hpe r n (i + 1) s1 s' (visitByFeature_invariant hI hpe _ i 1 h0 (by rw [hv]; rfl)) hr
    | err rc s1 =>
      rw [hv] at hr
      cases hr
      exact visitByFeature_invariant hI hpe _ i 1 h0 (by rw [hv]; rfl)
    | ub => rw [hv] at hr; cases hr

/-- What holds after every callback holds after a push that succeeds or fails. -/
theorem pushF_invariant {I : σ → Prop} {type : Int} (hI : ∀ e s s', I s → (hd e s).state? = some s' → I s')
    (hF : ∀ s s', I s → (finish s).state? = some s' → I s') (hpe : parse [] = none) (h0 : I k.vis) (hr : ReaderOf type k.reader)
    (hp : (kernelPushByFeature hd finish parse scratch a k).state? = some k') : I k'.vis ∧ ReaderOf type k'.reader := by
  cases hs : arrayReaderSetArray a k.reader with
  | ok u r =>
    rw [pushF_eq hs] at hp
    have h1 := readerOf_set hr hs (scratch a.length)
    unfold onVis at hp
    dsimp only at hp
    cases hv : kernelLoop hd parse scratch r a.length.toNat 0 k.vis with
    | ok u s1 =>
      have h2 := loop_invariant hI hpe r _ 0 k.vis s1 h0 (by rw [hv]; rfl)
      rw [M.bind_ok hv] at hp
      cases hf : finish s1 with
      | ok o s2 => rw [hf] at hp; cases hp; exact ⟨hF s1 s2 h2 (by rw [hf]; rfl), h1⟩
      | err rc s2 => rw [hf] at hp; cases hp; exact ⟨hF s1 s2 h2 (by rw [hf]; rfl), h1⟩
      | ub => rw [hf] at hp; cases hp
    | err rc s1 =>
      have h2 := loop_invariant hI hpe r _ 0 k.vis s1 h0 (by rw [hv]; rfl)
      rw [M.bind_err hv] at hp
      cases hp
      exact ⟨h2, h1⟩
    | ub => rw [M.bind_ub hv] at hp; cases hp
  | err rc r =>
    unfold kernelPushByFeature at hp
    rw [M.bind_err (rc := rc) (s' := { k with reader := r }) (by unfold kernelSetArray; rw [hs])] at hp
    cases hp
    exact ⟨h0, .setArray hr (by rw [hs]; rfl)⟩
  | ub =>
    unfold kernelPushByFeature at hp
    rw [M.bind_ub (by unfold kernelSetArray; rw [hs])] at hp
    cases hp

/-- A push that succeeds ends with a successful finish. -/
theorem pushF_inv {out : α} (hp : kernelPushByFeature hd finish parse scratch a k = .ok out k') : ∃ s1, finish s1 = .ok out k'.vis := by
  cases hs : arrayReaderSetArray a k.reader with
  | ok u r =>
    rw [pushF_eq hs] at hp
    unfold onVis at hp
    dsimp only at hp
    cases hr : (do kernelLoop hd parse scratch r a.length.toNat 0; finish) k.vis with
    | ok o s2 =>
      rw [hr] at hp
      cases hp
      obtain ⟨_, s1, h1, h2⟩ := M.bind_eq_ok.mp hr
      exact ⟨s1, h2⟩
    | err rc s2 => rw [hr] at hp; cases hp
    | ub => rw [hr] at hp; cases hp
  | err rc r =>
    unfold kernelPushByFeature at hp
    rw [M.bind_err (rc := rc) (s' := { k with reader := r }) (by unfold kernelSetArray; rw [hs])] at hp
    cases hp
  | ub =>
    unfold kernelPushByFeature at hp
    rw [M.bind_ub (by unfold kernelSetArray; rw [hs])] at hp
    cases hp
end

section
variable {parse : List Byte → Option Dbl} {print : Nat → Dbl → List Byte} {inType p max : Int} {k : Kernel WktW}

theorem fwStart_options {raw : WktW} {options : List (List Byte × List Byte)} (h1 : OptionIs options (str "precision") 16 p)
    (h2 : OptionIs options (str "max_element_size_bytes") (-1) max) :
    (formatWktStart options (wktWriterInit raw)).priv = wktInitVisitor p true max (wktInit raw) := by
  unfold formatWktStart wktWriterInitVisitor wktWriterInit
  dsimp only
  rw [optionIs_arg h1, optionIs_arg h2]

theorem fwOf_inv (hpe : parse [] = none) (hk : FwKernelOf parse print inType p max k) :
    Options (effective p) true max k.vis ∧ ReaderOf inType k.reader := by
  induction hk with
  | start h1 h2 hr =>
    dsimp only
    rw [fwStart_options h1 h2]
    exact ⟨⟨rfl, rfl, rfl⟩, hr⟩
  | push _ hp ih =>
    exact pushF_invariant (I := Options (effective p) true max) (fun e s s' h h1 => h.keep (keepsO_handler print e s s' h1))
      (fun s s' h h1 => h.keep (keepsO_finish s s' h1)) hpe ih.1 ih.2 hp

theorem fwStart_inv (hpe : parse [] = none) (hk : FwKernelStart parse print inType p max k) :
    FwKernelOf parse print inType p max k ∧ k.vis.core.Fresh := by
  cases hk with
  | start h1 h2 hr =>
    refine ⟨.start h1 h2 hr, ?_⟩
    dsimp only
    rw [fwStart_options h1 h2]
    exact wktInit_fresh _ _ _ _
  | push hk hp =>
    obtain ⟨s1, h1⟩ := pushF_inv hp
    exact ⟨.push hk (by rw [hp]; rfl), wktFinish_fresh h1⟩

theorem formatWkt_run (hp : ∀ n x, (print n x).length ≤ 40) (hpe : parse [] = none) (hE : ∀ w, parse (69 :: w) = none) {kind : ArrayKind}
    (hk : FwKernelStart parse print kind.id p max k) {a : AArray} {r : AReader}
    (hs : arrayReaderSetArray a k.reader = .ok () r) {fs : List (Option Geom)} (hf : kind.Features parse a fs)
    (hty : ∀ x, some x ∈ fs → x.Typed ∧ x.height ≤ 31)
    (hn : (elemBytes (texts (wktText (print (effective p)) true) fs)).length ≤ 2147483647) (scratch : Int → WktR × WkbR) :
    ∃ es k', formatWktPush print parse scratch a k = .ok (canonArray es) k' ∧ Written max (wktText (print (effective p)) true) false fs es := by
  obtain ⟨hk, hfr⟩ := fwStart_inv hpe hk
  obtain ⟨ho, hr⟩ := fwOf_inv hpe hk
  have hw := features_wf hpe hE hf
  obtain ⟨ts, h1, h2, h3⟩ := kernelLoop_features (wktHandler print) hpe hE hr hs scratch fs 0 (fun j f hj => by rw [Nat.zero_add]; exact hf.2 j f hj)
  have h4 := wktFeatures_of fs ts h1 h2 (fun g hg => ⟨hw g hg, hty g hg⟩)
  obtain ⟨s1, es, q1, q2, q3, q4, -⟩ := runWkt_run hp (effective p) true max ts fs h4 k.vis [] (has_fresh.mpr hfr) ho.1 ho.2.1 ho.2.2
    (by simpa [elemBytes] using hn)
  rw [List.nil_append] at q2 q4
  obtain ⟨s2, hfin, -⟩ := wktFinish_run q2 (by have : s1.values = _ := q2.values; rw [this]; exact q4)
  refine ⟨es, ⟨r.after (scratch a.length), s2⟩, ?_, q3⟩
  unfold formatWktPush
  rw [pushF_eq hs]
  unfold onVis
  dsimp only
  have h5 : kernelLoop (wktHandler print) parse scratch r a.length.toNat 0 k.vis = .ok () s1 := by
    rw [hf.1]
    refine (h3 k.vis).trans ?_
    rw [runWkt_foldr]
    exact q1
  rw [M.bind_ok h5, hfin]
end

end Verif
