import Verif.Spec.ArrayWriter
import Verif.Proof.KernelPush
import Verif.Props.NativeWriter
import Verif.Props.WktWriter
/-! # Array writers and the kernels that use them -/
namespace Verif
open Spec

/-! ## Options -/

theorem metadataGet_split {key v : List Byte} {before after : List (List Byte × List Byte)} (h : ∀ p ∈ before, p.1 ≠ key) :
    metadataGet key (before ++ (key, v) :: after) = some v := by
  induction before with
  | nil => simp [metadataGet]
  | cons p ps ih =>
    obtain ⟨k, x⟩ := p
    have : k ≠ key := h (k, x) (by simp)
    simp only [List.cons_append, metadataGet, if_neg this]
    exact ih fun q hq => h q (by simp [hq])

theorem metadataGet_absent {key : List Byte} {options : List (List Byte × List Byte)} (h : ∀ p ∈ options, p.1 ≠ key) :
    metadataGet key options = none := by
  induction options with
  | nil => rfl
  | cons p ps ih =>
    obtain ⟨k, x⟩ := p
    have : k ≠ key := h (k, x) (by simp)
    simp only [metadataGet, if_neg this]
    exact ih fun q hq => h q (by simp [hq])

theorem numberText_no_nul {text : List Byte} {n : Int} (h : NumberText text n) : ∀ c ∈ text, c ≠ 0 := by
  obtain ⟨bs, sg, ds, rfl, hb, -, hd, hs⟩ := h
  intro c hc h0
  subst h0
  rcases List.mem_append.mp hc with hc | hc
  · rcases List.mem_append.mp hc with hc | hc
    · have := hb _ hc
      unfold IsBlank at this
      revert this
      decide
    · rcases hs with ⟨rfl | rfl, -⟩ | ⟨rfl, -⟩
      · cases hc
      · revert hc; decide
      · revert hc; decide
  · have := (hd _ hc).1
    revert this
    decide

theorem argText_number {text : List Byte} {n : Int} (h : NumberText text n) (hl : text.length ≤ 15) : argText text = text := by
  unfold argText
  have : text.takeWhile (· ≠ 0) = text := by
    have h0 := numberText_no_nul h
    clear h hl
    induction text with
    | nil => rfl
    | cons c cs ih =>
      have hc := h0 c (by simp)
      rw [List.takeWhile_cons_of_pos (by simpa using hc), ih fun x hx => h0 x (by simp [hx])]
  rw [this, List.take_of_length_le hl]

theorem kernelArg_number {options : List (List Byte × List Byte)} {key : List Byte} {n : Int} (h : HasNumber options key n) :
    kernelArg options key = some n := by
  obtain ⟨b, text, a, rfl, h1, h2, h3, h4⟩ := h
  unfold kernelArg
  rw [metadataGet_split h1, Option.map_some, argText_number h2 h3]
  unfold cAtoi
  rw [strtol_of_text h2, toInt32_clamp h4]

theorem optionIs_arg {options : List (List Byte × List Byte)} {key : List Byte} {d n : Int} (h : OptionIs options key d n) :
    (kernelArg options key).getD d = n := by
  cases h with
  | absent h => unfold kernelArg; rw [metadataGet_absent h]; rfl
  | given h => rw [kernelArg_number h]; rfl

/-! ## Calls of the writers inside -/

theorem feed_native {h : Handler NWriter} : ∀ {t : List Event} {n n' : NWriter}, feed h t n = .ok () n' → ∀ (x : Option WktWriter) (y : Option WkbW) (z : TypeId),
    feed (fun e => onNative (h e)) t ⟨some n, x, y, z⟩ = .ok () ⟨some n', x, y, z⟩
  | [], n, n', hf, x, y, z => by cases hf; rfl
  | e :: t, n, n', hf, x, y, z => by
    cases he : h e n with
    | ok u n1 =>
      cases u
      rw [feed_cons_ok' he] at hf
      have h1 : onNative (h e) ⟨some n, x, y, z⟩ = .ok () ⟨some n1, x, y, z⟩ := by unfold onNative; dsimp only; rw [he]
      rw [feed_cons_ok' (h := fun e => onNative (h e)) h1]
      exact feed_native hf x y z
    | err rc n1 => simp [feed, he] at hf
    | ub => simp [feed, he] at hf

theorem feed_wkb {h : Handler WkbW} : ∀ {t : List Event} {n n' : WkbW}, feed h t n = .ok () n' → ∀ (x : Option NWriter) (y : Option WktWriter) (z : TypeId),
    feed (fun e => onWkb (h e)) t ⟨x, y, some n, z⟩ = .ok () ⟨x, y, some n', z⟩
  | [], n, n', hf, x, y, z => by cases hf; rfl
  | e :: t, n, n', hf, x, y, z => by
    cases he : h e n with
    | ok u n1 =>
      cases u
      rw [feed_cons_ok' he] at hf
      have h1 : onWkb (h e) ⟨x, y, some n, z⟩ = .ok () ⟨x, y, some n1, z⟩ := by unfold onWkb; dsimp only; rw [he]
      rw [feed_cons_ok' (h := fun e => onWkb (h e)) h1]
      exact feed_wkb hf x y z
    | err rc n1 => simp [feed, he] at hf
    | ub => simp [feed, he] at hf

theorem feed_wkt {h : Handler WktW} : ∀ {t : List Event} {n n' : WktW}, feed h t n = .ok () n' → ∀ (x : Option NWriter) (o : WktWriter) (y : Option WkbW) (z : TypeId),
    feed (fun e => onWkt (h e)) t ⟨x, some { o with priv := n }, y, z⟩ = .ok () ⟨x, some { o with priv := n' }, y, z⟩
  | [], n, n', hf, x, o, y, z => by cases hf; rfl
  | e :: t, n, n', hf, x, o, y, z => by
    cases he : h e n with
    | ok u n1 =>
      cases u
      rw [feed_cons_ok' he] at hf
      have h1 : onWkt (h e) ⟨x, some { o with priv := n }, y, z⟩ = .ok () ⟨x, some { o with priv := n1 }, y, z⟩ := by unfold onWkt; dsimp only; rw [he]
      rw [feed_cons_ok' (h := fun e => onWkt (h e)) h1]
      exact feed_wkt hf x o y z
    | err rc n1 => simp [feed, he] at hf
    | ub => simp [feed, he] at hf

theorem onNative_state {α : Type} {m : M NWriter α} {n : NWriter} {x : Option WktWriter} {y : Option WkbW} {z : TypeId} {s' : AWriter}
    (h : (onNative m ⟨some n, x, y, z⟩).state? = some s') : ∃ n', (m n).state? = some n' ∧ s' = ⟨some n', x, y, z⟩ := by
  unfold onNative at h
  dsimp only at h
  cases hm : m n with
  | ok a n' => rw [hm] at h; cases h; exact ⟨n', rfl, rfl⟩
  | err rc n' => rw [hm] at h; cases h; exact ⟨n', rfl, rfl⟩
  | ub => rw [hm] at h; cases h

theorem onWkb_state {α : Type} {m : M WkbW α} {n : WkbW} {x : Option NWriter} {y : Option WktWriter} {z : TypeId} {s' : AWriter}
    (h : (onWkb m ⟨x, y, some n, z⟩).state? = some s') : ∃ n', (m n).state? = some n' ∧ s' = ⟨x, y, some n', z⟩ := by
  unfold onWkb at h
  dsimp only at h
  cases hm : m n with
  | ok a n' => rw [hm] at h; cases h; exact ⟨n', rfl, rfl⟩
  | err rc n' => rw [hm] at h; cases h; exact ⟨n', rfl, rfl⟩
  | ub => rw [hm] at h; cases h

theorem onWkt_state {α : Type} {m : M WktW α} {n : WktW} {x : Option NWriter} {o : WktWriter} {y : Option WkbW} {z : TypeId} {s' : AWriter}
    (h : (onWkt m ⟨x, some { o with priv := n }, y, z⟩).state? = some s') :
    ∃ n', (m n).state? = some n' ∧ s' = ⟨x, some { o with priv := n' }, y, z⟩ := by
  unfold onWkt at h
  dsimp only at h
  cases hm : m n with
  | ok a n' => rw [hm] at h; cases h; exact ⟨n', rfl, rfl⟩
  | err rc n' => rw [hm] at h; cases h; exact ⟨n', rfl, rfl⟩
  | ub => rw [hm] at h; cases h

/-- The state left behind by a call whose result is only wrapped up. -/
theorem wrap_state {σ α β : Type} {m : M σ α} {f : α → β} {s s' : σ} (h : ((do let a ← m; pure (f a) : M σ β) s).state? = some s') :
    (m s).state? = some s' := by
  cases hm : m s with
  | ok a s1 => rw [M.bind_ok hm] at h; exact h
  | err rc s1 => rw [M.bind_err hm] at h; exact h
  | ub => rw [M.bind_ub hm] at h; cases h

theorem wrap_ok {σ α β : Type} {m : M σ α} {f : α → β} {s s' : σ} {b : β} (h : (do let a ← m; pure (f a) : M σ β) s = .ok b s') :
    ∃ a, m s = .ok a s' ∧ b = f a := by
  obtain ⟨a, s1, h1, h2⟩ := M.bind_eq_ok.mp h
  cases h2
  exact ⟨a, h1, rfl⟩

/-! ## Starting -/

theorem nativeId_ne {g : Int} (hg : 1 ≤ g ∧ g ≤ 6) (d : Dims) (k : CoordKind) (n : Int) (hn : 100000 ≤ n) : nativeId g d k ≠ n := by
  have hd1 : 1 ≤ d.code ∧ d.code ≤ 4 := by cases d <;> decide
  have hk1 : k.code = 1 ∨ k.code = 2 := by cases k <;> decide
  unfold nativeId
  omega

section
variable {junk : Nat → Byte} {print : Nat → Dbl → List Byte} {rawT : WktW} {rawB : WkbW} {options : List (List Byte × List Byte)}
  {h : Handler AWriter} {w : AWriter}

theorem start_native {g : Int} (hg : 1 ≤ g ∧ g ≤ 6) {d : Dims} {k : CoordKind} (ho : HasNumber options (str "type") (nativeId g d k))
    (hs : asGeoarrowStart junk print rawT rawB options none = some (.ok (h, w))) :
    ∃ n hN, nwInit junk (nativeId g d k) = .ok n ∧ nwInitVisitor junk n = .ok hN ∧ w = ⟨some n, none, none, nativeId g d k⟩ ∧
      h = fun e => onNative (hN e) := by
  have ne := nativeId_ne hg d k
  unfold asGeoarrowStart at hs
  rw [kernelArg_number ho] at hs
  dsimp only at hs
  rw [if_neg (by simp)] at hs
  unfold arrayWriterInit at hs
  rw [if_neg (by rintro (e | e | e | e) <;> exact ne _ (by decide) e), if_neg (ne _ (by decide)), if_neg (ne _ (by decide))] at hs
  cases hn : nwInit junk (nativeId g d k) with
  | error rc => rw [hn] at hs; cases hs
  | ok n =>
    rw [hn] at hs
    dsimp only at hs
    unfold arrayWriterInitVisitor at hs
    dsimp only at hs
    rw [if_neg (ne _ (by decide)), if_neg (ne _ (by decide))] at hs
    cases hv : nwInitVisitor junk n with
    | error rc => rw [hv] at hs; cases hs
    | ok hN =>
      rw [hv] at hs
      cases hs
      exact ⟨n, hN, rfl, hv, rfl, rfl⟩

theorem start_wkb (ho : HasNumber options (str "type") 100001)
    (hs : asGeoarrowStart junk print rawT rawB options none = some (.ok (h, w))) :
    w = ⟨none, none, some (wkbInit rawB), 100001⟩ ∧ h = fun e => onWkb (wkbHandler e) := by
  unfold asGeoarrowStart at hs
  rw [kernelArg_number ho] at hs
  cases hs
  exact ⟨rfl, rfl⟩

theorem start_wkt (ho : HasNumber options (str "type") 100003)
    (hs : asGeoarrowStart junk print rawT rawB options none = some (.ok (h, w))) :
    w = ⟨none, some (wktWriterInitVisitor (wktWriterInit rawT)), none, 100003⟩ ∧ h = fun e => onWkt (wktHandler print e) := by
  unfold asGeoarrowStart at hs
  rw [kernelArg_number ho] at hs
  cases hs
  exact ⟨rfl, rfl⟩
end

/-! ## To native arrays -/

section
variable {parse : List Byte → Option Dbl} {print : Nat → Dbl → List Byte} {inType : Int} {h : Handler AWriter} {k : Kernel AWriter}

theorem asOf_reader {outType : Int} (hk : AsKernelOf parse print inType outType h k) : ReaderOf inType k.reader := by
  induction hk with
  | start _ _ hr => exact hr
  | push _ hp ih => exact push_reader ih hp

theorem asStart_of {outType : Int} (hk : AsKernelStart parse print inType outType h k) : AsKernelOf parse print inType outType h k := by
  cases hk with
  | start ho hs hr => exact .start ho hs hr
  | push hk hp => exact .push hk (by rw [hp]; rfl)

/-- The visitor of a native writer depends on its type only. -/
theorem visitor_same {g : Int} (hg : 1 ≤ g ∧ g ≤ 6) {d : Dims} {ck : CoordKind} {junk : Nat → Byte} {n n' : NWriter} {hN : Handler NWriter}
    (h1 : NWriterOf (nativeId g d ck) n) (h2 : NWriterOf (nativeId g d ck) n') (hv : nwInitVisitor junk n = .ok hN) :
    nwInitVisitor junk n' = .ok hN := by
  have geo : ∀ {n : NWriter}, NWriterOf (nativeId g d ck) n → n.builder.schema.geometryType = g := by
    intro n h
    obtain ⟨b0, e1, e2⟩ := nwriterOf_same h
    rw [e2.schema]
    exact (init_native hg e1).geometry
  unfold nwInitVisitor at hv ⊢
  rw [geo h2]
  rw [geo h1] at hv
  exact hv

/-- A kernel that writes native arrays. -/
def NativeK (g : Int) (d : Dims) (ck : CoordKind) (h : Handler AWriter) (s : AWriter) : Prop :=
  ∃ junk n hN, s = ⟨some n, none, none, nativeId g d ck⟩ ∧ NWriterOf (nativeId g d ck) n ∧ nwInitVisitor junk n = .ok hN ∧
    h = fun e => onNative (hN e)

theorem finish_native {g : Int} (hg : 1 ≤ g ∧ g ≤ 6) (d : Dims) (ck : CoordKind) (junk : Nat → Byte) (n : NWriter) :
    arrayWriterFinish junk ⟨some n, none, none, nativeId g d ck⟩ =
      (do let a ← onNative (nwFinish junk); pure (AOut.native a) : M AWriter AOut) ⟨some n, none, none, nativeId g d ck⟩ := by
  have ne := nativeId_ne hg d ck
  unfold arrayWriterFinish
  dsimp only
  rw [if_neg (ne _ (by decide)), if_neg (ne _ (by decide))]

theorem nativeK_event {g : Int} (hg : 1 ≤ g ∧ g ≤ 6) {d : Dims} {ck : CoordKind} {e : Event} {s s' : AWriter} (hs : NativeK g d ck h s)
    (hr : (h e s).state? = some s') : NativeK g d ck h s' := by
  obtain ⟨junk, n, hN, rfl, h1, h2, rfl⟩ := hs
  obtain ⟨n', h3, rfl⟩ := onNative_state hr
  have h4 := NWriterOf.visit h1 h2 h3
  exact ⟨junk, n', hN, rfl, h4, visitor_same hg h1 h4 h2, rfl⟩

theorem asOf_native (hpe : parse [] = none) {g : Int} (hg : 1 ≤ g ∧ g ≤ 6) {d : Dims} {ck : CoordKind}
    (hk : AsKernelOf parse print inType (nativeId g d ck) h k) : NativeK g d ck h k.vis := by
  induction hk with
  | start ho hs _ =>
    obtain ⟨n, hN, h1, h2, rfl, rfl⟩ := start_native hg ho hs
    exact ⟨_, n, hN, rfl, .init h1, h2, rfl⟩
  | push _ hp ih =>
    refine push_invariant (I := NativeK g d ck _) (fun e s s' => nativeK_event hg) ?_ hpe ih hp
    · rintro s s' ⟨junk, n, hN, rfl, h1, h2, rfl⟩ hr
      rw [finish_native hg] at hr
      obtain ⟨n', h3, rfl⟩ := onNative_state (wrap_state hr)
      have h4 := NWriterOf.finish h1 h3
      exact ⟨junk, n', hN, rfl, h4, visitor_same hg h1 h4 h2, rfl⟩

theorem asStart_native (hpe : parse [] = none) {g : Int} (hg : 1 ≤ g ∧ g ≤ 6) {d : Dims} {ck : CoordKind}
    (hk : AsKernelStart parse print inType (nativeId g d ck) h k) :
    ∃ junk n hN, k.vis = ⟨some n, none, none, nativeId g d ck⟩ ∧ NWriterStart (nativeId g d ck) n ∧ nwInitVisitor junk n = .ok hN ∧
      h = fun e => onNative (hN e) := by
  cases hk with
  | start ho hs _ =>
    obtain ⟨n, hN, h1, h2, rfl, rfl⟩ := start_native hg ho hs
    exact ⟨_, n, hN, rfl, .init h1, h2, rfl⟩
  | @push fj _ _ _ _ _ _ hk hp =>
    have h0 := asOf_native hpe hg hk
    obtain ⟨r, s1, _, h4, h5, _⟩ := push_inv hp
    have hI : NativeK g d ck h s1 := visit_invariant (fun e s s' => nativeK_event hg) hpe r 0 _ h0 (by rw [h4]; rfl)
    obtain ⟨junk', n1, hN', rfl, h6, h7, h8⟩ := hI
    rw [finish_native hg] at h5
    obtain ⟨a, h9, rfl⟩ := wrap_ok h5
    unfold onNative at h9
    dsimp only at h9
    cases hf : nwFinish fj n1 with
    | ok a' n2 =>
      rw [hf] at h9
      injection h9 with h9 h10
      refine ⟨junk', n2, hN', h10.symm, .finish h6 hf, ?_, h8⟩
      exact visitor_same hg h6 (.finish h6 (by rw [hf]; rfl)) h7
    | err rc n2 => rw [hf] at h9; cases h9
    | ub => rw [hf] at h9; cases h9

theorem asNative_run (hpe : parse [] = none) (hE : ∀ w, parse (69 :: w) = none) {kind : ArrayKind} {g : Int} (hg : 1 ≤ g ∧ g ≤ 6) {d : Dims}
    {ck : CoordKind} (hk : AsKernelStart parse print kind.id (nativeId g d ck) h k) {a : AArray} {r : AReader}
    (hs : arrayReaderSetArray a k.reader = .ok () r) {fs : List (Option Geom)} (hf : kind.Features parse a fs)
    (hty : ∀ x, some x ∈ fs → HasType g x) (hn : g = 1 ∨ numCoords fs ≤ 2147483647) (junk : Nat → Byte) (scratch : Int → WktR × WkbR) :
    ∃ out k', asGeoarrowPush h junk parse scratch a k = .ok (.native out) k' ∧ Finished g d ck (fs.map Option.isSome) out ∧
      ∀ (i : Nat) (f : Option Geom), fs[i]? = some f → FeatureAt g d ck out i (f.map (Geom.stored d)) := by
  obtain ⟨jv, n, hN, h1, h2, h3, rfl⟩ := asStart_native hpe hg hk
  obtain ⟨t, ht, hb⟩ := features_visit hpe hE (asOf_reader (asStart_of hk)) hs hf
  have hw := features_wf hpe hE hf
  have hh := typed_history hg h2 h3 (fun x hx => ⟨hty x hx, hw x hx⟩) ht junk
  cases hr : feed hN t n with
  | ub => rw [hr] at hh; exact hh.elim
  | err rc w =>
    rw [hr] at hh
    obtain ⟨-, hm, h1⟩ := hh
    exact absurd hn (by omega)
  | ok u n1 =>
    rw [hr] at hh
    obtain ⟨out, n2, hfin, hfd, -, hfe⟩ := hh
    have hfeed := feed_native hr none none (nativeId g d ck)
    rw [← h1] at hfeed
    have hfinish : arrayWriterFinish junk ⟨some n1, none, none, nativeId g d ck⟩ = .ok (.native out) ⟨some n2, none, none, nativeId g d ck⟩ := by
      rw [finish_native hg]
      have : onNative (nwFinish junk) ⟨some n1, none, none, nativeId g d ck⟩ = .ok out ⟨some n2, none, none, nativeId g d ck⟩ := by
        unfold onNative
        dsimp only
        rw [hfin]
      rw [M.bind_ok this]
      rfl
    exact ⟨out, _, push_ok hs hb hfeed hfinish, hfd, hfe⟩

/-! ## To WKB -/

def WkbK (h : Handler AWriter) (s : AWriter) : Prop := h = (fun e => onWkb (wkbHandler e)) ∧ ∃ b, s = ⟨none, none, some b, 100001⟩

theorem wkbK_event {e : Event} {s s' : AWriter} (hs : WkbK h s) (hr : (h e s).state? = some s') : WkbK h s' := by
  obtain ⟨rfl, b, rfl⟩ := hs
  obtain ⟨b', -, rfl⟩ := onWkb_state hr
  exact ⟨rfl, b', rfl⟩

theorem finish_wkb (junk : Nat → Byte) (b : WkbW) :
    arrayWriterFinish junk ⟨none, none, some b, 100001⟩ =
      (do let a ← onWkb wkbFinish; pure (AOut.bin a) : M AWriter AOut) ⟨none, none, some b, 100001⟩ := rfl

theorem asOf_wkb (hpe : parse [] = none) (hk : AsKernelOf parse print inType 100001 h k) : WkbK h k.vis := by
  induction hk with
  | start ho hs _ =>
    obtain ⟨rfl, rfl⟩ := start_wkb ho hs
    exact ⟨rfl, _, rfl⟩
  | push _ hp ih =>
    refine push_invariant (I := WkbK _) (fun e s s' => wkbK_event) ?_ hpe ih hp
    rintro s s' ⟨rfl, b, rfl⟩ hr
    rw [finish_wkb] at hr
    obtain ⟨b', -, rfl⟩ := onWkb_state (wrap_state hr)
    exact ⟨rfl, b', rfl⟩

theorem wkbFinish_fresh {s s' : WkbW} {a : BinArray} (h : wkbFinish s = .ok a s') : s'.Fresh := by
  unfold wkbFinish at h
  split at h
  · cases h
  · dsimp only at h
    split at h
    · cases h
    · cases h
    · cases h; exact ⟨rfl, rfl, rfl, rfl, rfl⟩

theorem asStart_wkb (hpe : parse [] = none) (hk : AsKernelStart parse print inType 100001 h k) :
    h = (fun e => onWkb (wkbHandler e)) ∧ ∃ b, k.vis = ⟨none, none, some b, 100001⟩ ∧ b.Fresh := by
  cases hk with
  | start ho hs _ =>
    obtain ⟨rfl, rfl⟩ := start_wkb ho hs
    exact ⟨rfl, _, rfl, init_fresh _⟩
  | push hk hp =>
    have h0 := asOf_wkb hpe hk
    obtain ⟨r, s1, _, h4, h5, _⟩ := push_inv hp
    have hI : WkbK h s1 := visit_invariant (fun e s s' => wkbK_event) hpe r 0 _ h0 (by rw [h4]; rfl)
    obtain ⟨h1, b, rfl⟩ := hI
    rw [finish_wkb] at h5
    obtain ⟨a, h9, rfl⟩ := wrap_ok h5
    unfold onWkb at h9
    dsimp only at h9
    cases hf : wkbFinish b with
    | ok a' b' =>
      rw [hf] at h9
      injection h9 with h9 h10
      exact ⟨h1, b', h10.symm, wkbFinish_fresh hf⟩
    | err rc n2 => rw [hf] at h9; cases h9
    | ub => rw [hf] at h9; cases h9

theorem wkb_features : ∀ (fs : List (Option Geom)) (t : List Event), (∀ g, some g ∈ fs → g.WF ∧ g.SinglePoints ∧ g.height ≤ 29) → FeaturesTrace fs t →
    ∀ {s : WkbW} {els : List (Option (List Byte))}, s.Has els → (elemBytes (els ++ encodings fs)).length ≤ 2147483647 →
    ∃ s', feed wkbHandler t s = .ok () s' ∧ s'.Has (els ++ encodings fs)
  | [], t, _, ht, s, els, hs, _ => by cases ht; exact ⟨s, rfl, by simpa [encodings] using hs⟩
  | f :: fs, t, hw, ht, s, els, hs, hv => by
    obtain ⟨t1, t2, h1, h2, rfl⟩ := ht
    have he : els ++ encodings (f :: fs) = els ++ [f.map isoWkb] ++ encodings fs := by simp [encodings]
    rw [he] at hv ⊢
    have hadd : WkbOp.Adds (.visit t1) f := by
      cases f with
      | none => cases h1; exact .visitNull
      | some g =>
        obtain ⟨a, b, c⟩ := hw g (by simp)
        exact .visit h1 a b c
    obtain ⟨s1, a1, a2⟩ := op_run hadd hs (by rw [elemBytes_append, List.length_append] at hv; omega)
    obtain ⟨s2, b1, b2⟩ := wkb_features fs t2 (fun g hg => hw g (by simp [hg])) h2 a2 hv
    refine ⟨s2, ?_, b2⟩
    rw [feed_append_ok (s' := s1) a1]
    exact b1

theorem asWkb_run (hpe : parse [] = none) (hE : ∀ w, parse (69 :: w) = none) {kind : ArrayKind}
    (hk : AsKernelStart parse print kind.id 100001 h k) {a : AArray} {r : AReader}
    (hs : arrayReaderSetArray a k.reader = .ok () r) {fs : List (Option Geom)} (hf : kind.Features parse a fs)
    (hty : ∀ x, some x ∈ fs → x.SinglePoints ∧ x.height ≤ 29) (hn : (elemBytes (encodings fs)).length ≤ 2147483647)
    (junk : Nat → Byte) (scratch : Int → WktR × WkbR) :
    ∃ k', asGeoarrowPush h junk parse scratch a k = .ok (.bin (canonArray (encodings fs))) k' := by
  obtain ⟨rfl, b, h1, h2⟩ := asStart_wkb hpe hk
  obtain ⟨t, ht, hb⟩ := features_visit hpe hE (asOf_reader (asStart_of hk)) hs hf
  have hw := features_wf hpe hE hf
  obtain ⟨b1, hr, h3⟩ := wkb_features fs t (fun x hx => ⟨hw x hx, hty x hx⟩) ht (has_fresh.mpr h2) (by simpa using hn)
  rw [List.nil_append] at h3
  obtain ⟨b2, hfin, _⟩ := finish_run h3 (by rw [h3.values]; exact hn)
  have hfeed := feed_wkb hr none none 100001
  rw [← h1] at hfeed
  have hfinish : arrayWriterFinish junk ⟨none, none, some b1, 100001⟩ = .ok (.bin (canonArray (encodings fs))) ⟨none, none, some b2, 100001⟩ := by
    rw [finish_wkb]
    have : onWkb wkbFinish ⟨none, none, some b1, 100001⟩ = .ok (canonArray (encodings fs)) ⟨none, none, some b2, 100001⟩ := by
      unfold onWkb
      dsimp only
      rw [hfin]
    rw [M.bind_ok this]
    rfl
  exact ⟨_, push_ok hs hb hfeed hfinish⟩

end

end Verif
