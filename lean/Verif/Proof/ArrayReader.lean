import Verif.Spec.SerializedArray
import Verif.Proof.ArrayView
import Verif.Props.WkbReader
import Verif.Props.WktReader
import Verif.Props.ArrayView
/-! Reading serialized arrays element by element. -/
namespace Verif
open Spec

/-! ## Single elements: the state of the reader does not matter -/

/-- Running a program and dropping its value. -/
def Res.drop {σ α : Type} : Res σ α → Res σ Unit
  | .ok _ s => .ok () s
  | .err rc s => .err rc s
  | .ub => .ub

theorem drop_run {σ α : Type} (m : M σ α) (s : σ) : (do let _ ← m; pure () : M σ Unit) s = (m s).drop := by
  rw [M.bind_run]
  cases m s <;> rfl

/-- A reader with a state of its own behaves as `read` says, in whatever state it is. -/
def Reads {ρ : Type} (read : Read) (visit : ∀ σ : Type, Handler σ → List Byte → ρ → M σ ρ) : Prop :=
  ∀ b, ∃ t o, read b t o ∧ ∀ r, Behaves (fun σ h => (do let _ ← visit σ h b r; pure () : M σ Unit)) t o

theorem wkbVisitS_drop {σ} (h : Handler σ) (b : List Byte) (r : WkbR) :
    (do let _ ← wkbVisitS h b r; pure () : M σ Unit) = wkbVisit r b h := by
  funext s
  rw [drop_run]
  unfold wkbVisitS wkbVisit
  cases wkbRead b r with
  | ub => rfl
  | err rc r' => rfl
  | ok v r' =>
    dsimp only
    rw [M.bind_run]
    cases viewVisit (wkbMem b) h v s <;> rfl

theorem wkbVisit_state {σ} (h : Handler σ) (b : List Byte) (r r' : WkbR) : wkbVisit r b h = wkbVisit r' b h := by
  cases b with
  | cons x xs =>
    unfold wkbVisit
    rw [wkbRead_state_irrelevant r r' _ (by simp)]
  | nil =>
    have hn : ∀ q : WkbR, ∃ q', wkbRead [] q = .err EINVAL q' := by
      intro q
      unfold wkbRead
      rw [M.bind_ok (M.modify_run _ _), M.bind_run, readNode_root]
      simp only [wkbNodeBody]
      rw [M.bind_run]
      have hh : ∃ q', wkbReadHeader [] { q with pos := 0, left := ([] : List Byte).length, nodes := [] } = .err EINVAL q' := by
        simp only [wkbReadHeader]
        exact ⟨_, by rw [M.bind_run]; rfl⟩
      obtain ⟨q', hq⟩ := hh
      rw [hq]
      exact ⟨_, rfl⟩
    obtain ⟨q1, h1⟩ := hn r
    obtain ⟨q2, h2⟩ := hn r'
    unfold wkbVisit
    rw [h1, h2]

theorem reads_wkb : Reads WkbRead (fun _ h => wkbVisitS h) := by
  intro b
  obtain ⟨t, o, h⟩ := C11_wkb_visit ⟨0, 0, false, []⟩ b
  refine ⟨t, o, h, fun r => ?_⟩
  intro σ hd s
  show (do let _ ← wkbVisitS hd b r; pure () : M σ Unit) s = _
  rw [wkbVisitS_drop, wkbVisit_state hd b r ⟨0, 0, false, []⟩]
  exact h σ hd s

theorem reads_wkt {parse : List Byte → Option Dbl} (hpe : parse [] = none) :
    Reads (WktRead parse) (fun _ h => wktVisitS h parse) := by
  intro b
  obtain ⟨t, o, h⟩ := C11_wkt_visit hpe b { pos := 0, left := 0, nv := 0, n := 0, coords := fun _ => 0 }
  refine ⟨t, o, h, fun r => ?_⟩
  intro σ hd s
  have he : (do let _ ← wktVisitS hd parse b r; pure () : M σ Unit) = wktVisit parse b hd r := by
    funext s
    unfold wktVisitS wktVisit
    rw [drop_run, M.bind_run, M.bind_run]
    cases wkrFeature parse b hd (b.length + 1) { r with pos := 0, left := b.length } s <;> rfl
  show (do let _ ← wktVisitS hd parse b r; pure () : M σ Unit) s = _
  rw [he, C11_wkt_reader_reusable hpe b r _ hd s]
  exact h σ hd s

/-! ## Loops -/

/-- The same with the loop's own state: one step that behaves in a fixed way, then the rest. -/
theorem behaves_step {ρ : Type} {p : ∀ σ : Type, Handler σ → ρ → M σ ρ} {q : ∀ σ : Type, Handler σ → ρ → M σ ρ} {t1 t2 o}
    (hp : ∀ r, Behaves (fun σ h => (do let _ ← p σ h r; pure () : M σ Unit)) t1 (.done ()))
    (hq : ∀ r, Behaves (fun σ h => (do let _ ← q σ h r; pure () : M σ Unit)) t2 o) (r : ρ) :
    Behaves (fun σ h => (do let _ ← (do let r ← p σ h r; q σ h r); pure () : M σ Unit)) (t1 ++ t2) o := by
  intro σ h s
  show (do let _ ← (do let r ← p σ h r; q σ h r); pure () : M σ Unit) s = _
  have h1 := hp r σ h s
  simp only [] at h1
  rw [drop_run] at h1 ⊢
  rw [M.bind_run]
  unfold replay at h1 ⊢
  rw [feed_append]
  cases hf : feed h t1 s with
  | ok u s' =>
    rw [hf] at h1
    cases hs : p σ h r s with
    | ok r' s'' =>
      rw [hs] at h1
      cases h1
      dsimp only
      have h2 := hq r' σ h s'
      simp only [] at h2
      rw [drop_run] at h2
      exact h2
    | err rc s'' => rw [hs] at h1; cases h1
    | ub => rw [hs] at h1; cases h1
  | err rc s' =>
    rw [hf] at h1
    cases hs : p σ h r s with
    | ok r' s'' => rw [hs] at h1; cases h1
    | err rc s'' => rw [hs] at h1; exact h1
    | ub => rw [hs] at h1; cases h1
  | ub =>
    rw [hf] at h1
    cases hs : p σ h r s with
    | ok r' s'' => rw [hs] at h1; cases h1
    | err rc s'' => rw [hs] at h1; cases h1
    | ub => rfl

theorem behaves_stop {ρ : Type} {p : ∀ σ : Type, Handler σ → ρ → M σ ρ} {q : ∀ σ : Type, Handler σ → ρ → M σ ρ} {t1}
    {o : Outcome Unit} (ho : o ≠ .done ())
    (hp : ∀ r, Behaves (fun σ h => (do let _ ← p σ h r; pure () : M σ Unit)) t1 o) (r : ρ) :
    Behaves (fun σ h => (do let _ ← (do let r ← p σ h r; q σ h r); pure () : M σ Unit)) t1 o := by
  intro σ h s
  show (do let _ ← (do let r ← p σ h r; q σ h r); pure () : M σ Unit) s = _
  have h1 := hp r σ h s
  simp only [] at h1
  rw [← h1, drop_run, drop_run, M.bind_run]
  cases hs : p σ h r s with
  | ok r' s'' =>
    rw [drop_run, hs] at h1
    exfalso
    unfold replay at h1
    cases hf : feed h t1 s with
    | ok u s' =>
      rw [hf] at h1
      cases o with
      | done u => exact ho rfl
      | fail rc => cases h1
      | crash => cases h1
    | err rc s' => rw [hf] at h1; cases h1
    | ub => rw [hf] at h1; cases h1
  | err rc s'' => rfl
  | ub => rfl

theorem element_null {ρ : Type} {bytes : Option (List Byte)} {visit : ∀ σ : Type, Handler σ → List Byte → ρ → M σ ρ} (r : ρ) :
    Behaves (fun σ h => (do let _ ← arElement h (some false) bytes (visit σ h) r; pure () : M σ Unit))
      [.featStart, .nullFeat, .featEnd] (.done ()) := by
  intro σ h s
  show (do let _ ← arElement h (some false) bytes (visit σ h) r; pure () : M σ Unit) s = _
  rw [drop_run]
  have he : arElement h (some false) bytes (visit σ h) r = (do h .featStart; h .nullFeat; h .featEnd; pure r) := rfl
  rw [he, M.bind_run]
  unfold replay
  simp only [feed]
  cases h .featStart s with
  | ok u s1 =>
    dsimp only
    rw [M.bind_run]
    cases h .nullFeat s1 with
    | ok u s2 =>
      dsimp only
      rw [M.bind_run]
      cases h .featEnd s2 <;> rfl
    | err rc s2 => rfl
    | ub => rfl
  | err rc s1 => rfl
  | ub => rfl

/-- The loop over described elements. -/
theorem elements_run {ρ : Type} {read : Read} {visit : ∀ σ : Type, Handler σ → List Byte → ρ → M σ ρ} (hv : Reads read visit)
    {valid : Int → Option Bool} {bytes : Int → Option (List Byte)} : ∀ (es : List (Option (List Byte))) (i : Int),
    (∀ (t : Nat) e, es[t]? = some e → match e with
      | none => valid (i + t) = some false
      | some b => valid (i + t) = some true ∧ bytes (i + t) = some b) →
    ∃ t o, ElementsRead read es t o ∧ ∀ r, Behaves (fun σ h =>
      (do let _ ← arLoop (fun i => arElement h (valid i) (bytes i) (visit σ h)) es.length i r; pure () : M σ Unit)) t o
  | [], i, _ => ⟨[], .done (), ⟨rfl, rfl⟩, fun r => Behaves.pure ()⟩
  | e :: es, i, hd => by
    have h0 := hd 0 e rfl
    rw [show i + ((0 : Nat) : Int) = i by omega] at h0
    obtain ⟨t2, o, h1, h2⟩ := elements_run hv es (i + 1) (fun t e ht => by
      have h := hd (t + 1) e (by simpa using ht)
      rwa [show i + ((t + 1 : Nat) : Int) = i + 1 + (t : Int) by omega] at h)
    cases e with
    | none =>
      refine ⟨_, o, ⟨t2, h1, rfl⟩, fun r => ?_⟩
      refine behaves_step (p := fun σ h => arElement h (valid i) (bytes i) (visit σ h))
        (q := fun σ h => arLoop (fun i => arElement h (valid i) (bytes i) (visit σ h)) es.length (i + 1)) (fun r => ?_) h2 r
      rw [show valid i = some false from h0]
      exact element_null r
    | some b =>
      obtain ⟨hval, hb⟩ := h0
      obtain ⟨t1, o1, hr, hbe⟩ := hv b
      have hp : ∀ r, Behaves (fun σ h => (do let _ ← arElement h (valid i) (bytes i) (visit σ h) r; pure () : M σ Unit)) t1 o1 := by
        intro r
        rw [hval, hb]
        exact hbe r
      rcases Classical.em (o1 = .done ()) with rfl | ho
      · exact ⟨_, o, ⟨t1, _, hr, .inl ⟨rfl, t2, h1, rfl⟩⟩, behaves_step
          (p := fun σ h => arElement h (valid i) (bytes i) (visit σ h))
          (q := fun σ h => arLoop (fun i => arElement h (valid i) (bytes i) (visit σ h)) es.length (i + 1)) hp h2⟩
      · exact ⟨_, o1, ⟨t1, _, hr, .inr ⟨ho, rfl, rfl⟩⟩, behaves_stop ho
          (p := fun σ h => arElement h (valid i) (bytes i) (visit σ h))
          (q := fun σ h => arLoop (fun i => arElement h (valid i) (bytes i) (visit σ h)) es.length (i + 1)) hp⟩

/-- The loop over anything. -/
theorem elements_regular {ρ : Type} {read : Read} {visit : ∀ σ : Type, Handler σ → List Byte → ρ → M σ ρ} (hv : Reads read visit)
    (valid : Int → Option Bool) (bytes : Int → Option (List Byte)) : ∀ (n : Nat) (i : Int),
    ∃ t o, ∀ r, Behaves (fun σ h =>
      (do let _ ← arLoop (fun i => arElement h (valid i) (bytes i) (visit σ h)) n i r; pure () : M σ Unit)) t o
  | 0, i => ⟨[], .done (), fun r => Behaves.pure ()⟩
  | n + 1, i => by
    obtain ⟨t2, o, h2⟩ := elements_regular hv valid bytes n (i + 1)
    have hp : ∃ t1 o1, ∀ r, Behaves (fun σ h => (do let _ ← arElement h (valid i) (bytes i) (visit σ h) r; pure () : M σ Unit)) t1 o1 := by
      rcases hval : valid i with _ | (_ | _)
      · exact ⟨[], .crash, fun r => Behaves.undef⟩
      · exact ⟨_, _, fun r => element_null r⟩
      · rcases hb : bytes i with _ | b
        · exact ⟨[], .crash, fun r => Behaves.undef⟩
        · obtain ⟨t1, o1, _, hbe⟩ := hv b
          exact ⟨t1, o1, hbe⟩
    obtain ⟨t1, o1, hp⟩ := hp
    rcases Classical.em (o1 = .done ()) with rfl | ho
    · exact ⟨_, o, behaves_step
        (p := fun σ h => arElement h (valid i) (bytes i) (visit σ h))
        (q := fun σ h => arLoop (fun i => arElement h (valid i) (bytes i) (visit σ h)) n (i + 1)) hp h2⟩
    · exact ⟨_, o1, behaves_stop ho
        (p := fun σ h => arElement h (valid i) (bytes i) (visit σ h))
        (q := fun σ h => arLoop (fun i => arElement h (valid i) (bytes i) (visit σ h)) n (i + 1)) hp⟩

/-! ## Setting arrays -/

/-- Layouts that go through nanoarrow's view. -/
def naKindOf : BinLayout → NaKind
  | .offsets64 => .large
  | _ => .view

theorem naValidate_run (v s : NaArr) : naValidateDefault v s = .ok () s ∨ naValidateDefault v s = .err EINVAL s ∨
    naValidateDefault v s = .ub := by
  have h1 : naValidateMinimal v s = .ok () s ∨ naValidateMinimal v s = .err EINVAL s := by
    unfold naValidateMinimal
    repeat' split
    all_goals first | exact .inl rfl | exact .inr rfl
  unfold naValidateDefault
  rw [M.bind_run]
  rcases h1 with h1 | h1 <;> rw [h1]
  · dsimp only
    cases v.kind with
    | view => exact .inl rfl
    | large =>
      dsimp only
      split
      · cases v.b1 with
        | none => exact .inr (.inr rfl)
        | some b =>
          simp only [orUb, M.bind_run, M.pure_run]
          cases i64At b v.offset with
          | none => exact .inr (.inr rfl)
          | some x =>
            simp only [M.pure_run]
            cases i64At b (v.offset + v.length) with
            | none => exact .inr (.inr rfl)
            | some y =>
              simp only [M.pure_run]
              repeat' split
              all_goals first | exact .inl rfl | exact .inr (.inl rfl)
      · exact .inl rfl
  · exact .inr (.inl rfl)

/-- What nanoarrow's view keeps of an array. -/
structure NaSet (a : AArray) (v w : NaArr) : Prop where
  kind : w.kind = v.kind
  offset : w.offset = a.offset
  length : w.length = a.length
  nullCount : w.nullCount = a.nullCount
  b0 : a.buffers[0]? = some w.b0
  b1 : a.buffers[1]? = some w.b1
  large : v.kind = .large → a.buffers[2]? = some w.b2 ∧ a.buffers.length = 3
  view : v.kind = .view → w.variadic = a.buffers.drop 2

theorem naSetInternal_post (a : AArray) (v : NaArr) :
    (∃ w, naSetInternal a v = .ok () w ∧ NaSet a v w ∧ a.children = []) ∨
    (∃ w, naSetInternal a v = .err EINVAL w ∧ w.kind = v.kind ∧
      ¬ (a.children = [] ∧ (v.kind = .large → a.buffers.length = 3))) ∨
    (naSetInternal a v = .ub ∧ (a.buffers.length < 2 ∨ v.kind = .large ∧ a.buffers.length < 3)) := by
  unfold naSetInternal
  rw [M.bind_run, M.get_run]
  dsimp only
  rw [M.bind_run, M.modify_run]
  dsimp only
  cases h0 : a.buffers[0]? with
  | none =>
    have := List.getElem?_eq_none_iff.mp h0
    exact .inr (.inr ⟨rfl, .inl (by omega)⟩)
  | some b0 =>
    rw [orUb_some, M.bind_run, M.pure_run]
    dsimp only
    cases h1 : a.buffers[1]? with
    | none =>
      have := List.getElem?_eq_none_iff.mp h1
      exact .inr (.inr ⟨rfl, .inl (by omega)⟩)
    | some b1 =>
      rw [orUb_some, M.bind_run, M.pure_run]
      dsimp only
      rw [M.bind_run, M.modify_run]
      dsimp only
      cases hk : v.kind with
      | large =>
        dsimp only
        cases h2 : a.buffers[2]? with
        | none =>
          have := List.getElem?_eq_none_iff.mp h2
          exact .inr (.inr ⟨rfl, .inr ⟨rfl, by omega⟩⟩)
        | some b2 =>
          simp only [orUb, M.bind_run, M.pure_run, M.modify_run]
          by_cases hl : a.buffers.length = 3
          · rw [if_neg (by simpa using hl), M.pure_run]
            dsimp only
            by_cases hc : a.children = []
            · rw [if_neg (by simpa using hc)]
              exact .inl ⟨_, rfl, ⟨hk.symm ▸ rfl, rfl, rfl, rfl, h0, h1, fun _ => ⟨h2, hl⟩, fun h => by rw [hk] at h; cases h⟩, hc⟩
            · rw [if_pos hc]
              exact .inr (.inl ⟨_, rfl, rfl, fun h => hc h.1⟩)
          · rw [if_pos hl]
            exact .inr (.inl ⟨_, rfl, rfl, fun h => hl (h.2 trivial)⟩)
      | view =>
        dsimp only
        rw [M.bind_run, M.modify_run]
        dsimp only
        by_cases hc : a.children = []
        · rw [if_neg (by simpa using hc)]
          exact .inl ⟨_, rfl, ⟨hk.symm ▸ rfl, rfl, rfl, rfl, h0, h1, fun h => (by rw [hk] at h; cases h), fun _ => rfl⟩, hc⟩
        · rw [if_pos hc]
          exact .inr (.inl ⟨_, rfl, rfl, fun h => hc h.1⟩)

theorem naSetArray_ok {a : AArray} {v w : NaArr} (h : naSetArray a v = .ok () w) : NaSet a v w := by
  unfold naSetArray at h
  obtain ⟨_, s1, h1, h2⟩ := M.bind_eq_ok.mp h
  rcases naSetInternal_post a v with ⟨w', h3, h4, _⟩ | ⟨w', h3, _⟩ | ⟨h3, _⟩
  · rw [h1] at h3
    cases h3
    rw [M.bind_run, M.get_run] at h2
    dsimp only at h2
    rcases naValidate_run s1 s1 with h5 | h5 | h5
    · rw [h5] at h2; cases h2; exact h4
    · rw [h5] at h2; cases h2
    · rw [h5] at h2; cases h2
  · rw [h1] at h3; cases h3
  · rw [h1] at h3; cases h3

theorem naSetArray_kind {a : AArray} {v w : NaArr} (h : (naSetArray a v).state? = some w) : w.kind = v.kind := by
  unfold naSetArray at h
  rw [M.bind_run] at h
  rcases naSetInternal_post a v with ⟨w', h3, h4, _⟩ | ⟨w', h3, h4, _⟩ | ⟨h3, _⟩
  · rw [h3] at h
    dsimp only at h
    rw [M.bind_run, M.get_run] at h
    dsimp only at h
    rcases naValidate_run w' w' with h5 | h5 | h5
    · rw [h5] at h; cases h; exact h4.kind
    · rw [h5] at h; cases h; exact h4.kind
    · rw [h5] at h; cases h
  · rw [h3] at h; cases h; exact h4
  · rw [h3] at h; cases h

/-- What the reader of a type is. -/
theorem readerOf_inv {type : Int} {r : AReader} (h : ReaderOf type r) : r.type = type ∧
    (isArrowType type = false → ViewOf type r.av) ∧
    ((type = 100002 ∨ type = 100004) → r.na.kind = .large) ∧ ((type = 100005 ∨ type = 100006) → r.na.kind = .view) := by
  have hinit : ∀ (type : Int) (r : AReader), arrayReaderInit type = some r → r.type = type ∧
      (isArrowType type = false → ViewOf type r.av) ∧
      ((type = 100002 ∨ type = 100004) → r.na.kind = .large) ∧ ((type = 100005 ∨ type = 100006) → r.na.kind = .view) := by
    intro type r h
    unfold arrayReaderInit at h
    by_cases h1 : type = 100002 ∨ type = 100004
    · rw [if_pos h1] at h
      cases h
      refine ⟨rfl, ?_, fun _ => rfl, fun h => ?_⟩
      · intro h
        rcases h1 with rfl | rfl <;> cases h
      · have : ∀ t : Int, (t = 100002 ∨ t = 100004) → (t = 100005 ∨ t = 100006) → False := by omega
        exact (this _ h1 h).elim
    · rw [if_neg h1] at h
      by_cases h2 : type = 100005 ∨ type = 100006
      · rw [if_pos h2] at h
        cases h
        refine ⟨rfl, ?_, fun h => absurd h h1, fun _ => rfl⟩
        intro h
        rcases h2 with rfl | rfl <;> cases h
      · rw [if_neg h2] at h
        cases hv : arrayViewInitFromType type with
        | ok v s =>
          rw [hv] at h
          cases h
          exact ⟨rfl, fun _ => .fromType hv, fun h => absurd h h1, fun h => absurd h h2⟩
        | err rc s => rw [hv] at h; cases h
        | ub => rw [hv] at h; cases h
  induction h with
  | init h => exact hinit _ _ h
  | @fromSchema c r h ht =>
    unfold arrayReaderInitFromSchema at h
    cases hs : schemaViewInit c { extName := none, extMetadata := none, type := 0, geometryType := 0, dimensions := 0, coordType := 0 } with
    | ok u s =>
      rw [hs] at h
      have h' := hinit _ _ h
      rw [← h'.1, ht] at h'
      exact ⟨ht, h'.2⟩
    | err rc s => rw [hs] at h; cases h
    | ub => rw [hs] at h; cases h
  | @setArray r r' a _ h ih =>
    obtain ⟨i1, i2, i3, i4⟩ := ih
    unfold arrayReaderSetArray at h
    have hkind : ∀ v : NaArr, (naSetArray a r.na).state? = some v → v.kind = r.na.kind := by
      intro v hv
      exact naSetArray_kind hv
    by_cases hA : isArrowType r.type = true
    · rw [if_pos hA] at h
      rw [i1] at hA
      cases hs : naSetArray a r.na with
      | ok u v =>
        rw [hs] at h hkind
        cases h
        exact ⟨i1, fun h => (Bool.noConfusion (h.symm.trans hA)), fun h => (hkind v rfl).trans (i3 h), fun h => (hkind v rfl).trans (i4 h)⟩
      | err rc v =>
        rw [hs] at h hkind
        cases h
        exact ⟨i1, fun h => (Bool.noConfusion (h.symm.trans hA)), fun h => (hkind v rfl).trans (i3 h), fun h => (hkind v rfl).trans (i4 h)⟩
      | ub => rw [hs] at h; cases h
    · rw [if_neg hA] at h
      rw [i1] at hA
      cases hs : arrayViewSetArray a r.av with
      | ok u v =>
        rw [hs] at h
        cases h
        exact ⟨i1, fun h => .setArray (i2 h) (a := a) (by rw [hs]; rfl), i3, i4⟩
      | err rc v =>
        rw [hs] at h
        cases h
        exact ⟨i1, fun h => .setArray (i2 h) (a := a) (by rw [hs]; rfl), i3, i4⟩
      | ub => rw [hs] at h; cases h
  | visited _ ih => exact ih

/-! ## The bytes of elements -/

theorem sliceAt_of {buffer : Option (Option (List Byte))} {b : Option (List Byte)} {lo hi : Nat} {bytes : List Byte}
    (hb : buffer = some b) (h : BytesOf buffer lo hi bytes) : sliceAt b lo ((hi : Int) - lo) = some bytes := by
  subst hb
  unfold sliceAt
  rcases h with ⟨d, h1, h2, h3, rfl⟩ | ⟨h1, rfl, rfl, rfl⟩
  · obtain rfl := Option.some.inj h1
    dsimp only
    rw [if_pos (by omega)]
    congr 2
    omega
  · obtain rfl := Option.some.inj h1
    dsimp only
    rw [if_pos (by omega)]

theorem avBytes_of {v : AView} {a : AArray} {i : Nat} {bytes : List Byte} (h1 : a.buffers[1]? = some (v.offsets 0))
    (h2 : a.buffers[2]? = some v.data) (h : BytesAt .offsets32 a i bytes) : avBytes v (a.offset + i) = some bytes := by
  obtain ⟨b, lo, hi, hb, hlo, hhi, hs⟩ := h
  unfold avBytes
  rw [h1] at hb
  rw [Option.some.inj hb]
  dsimp only
  rw [hlo, hhi]
  exact sliceAt_of h2 hs

theorem naBytes_of {k : BinLayout} (hk : k ≠ .offsets32) {a : AArray} {v w : NaArr} (hkind : v.kind = naKindOf k)
    (hs : NaSet a v w) {i : Nat} {bytes : List Byte} (h : BytesAt k a i bytes) : naBytes w i = some bytes := by
  have hw : w.kind = naKindOf k := hs.kind.trans hkind
  have ho : (i : Int) + w.offset = a.offset + i := by rw [hs.offset]; omega
  cases k with
  | offsets32 => exact absurd rfl hk
  | offsets64 =>
    obtain ⟨b, lo, hi, hb, hlo, hhi, hsl⟩ := h
    unfold naBytes
    rw [hw]
    simp only [naKindOf]
    rw [hs.b1] at hb
    rw [Option.some.inj hb, ho]
    dsimp only
    rw [hlo, hhi]
    exact sliceAt_of (hs.large hkind).1 hsl
  | views =>
    obtain ⟨b, n, hb, hn, h⟩ := h
    unfold naBytes
    rw [hw]
    simp only [naKindOf]
    rw [ho]
    unfold naViewBytes
    rw [hs.b1] at hb
    rw [Option.some.inj hb]
    dsimp only
    rw [hn]
    have h0 : 0 ≤ a.offset + i := by
      unfold i32At at hn
      by_cases hc : 0 ≤ 4 * (a.offset + ↑i) ∧ 4 * (4 * (a.offset + ↑i)) + 4 ≤ (b.length : Int)
      · omega
      · rw [if_neg hc] at hn; cases hn
    rcases h with ⟨h12, hlen, rfl⟩ | ⟨h12, k, o, hk', ho', d, hd, hlen, rfl⟩
    · show (if (n : Int) ≤ 12 then _ else _) = _
      rw [if_pos (by omega), if_pos hlen]
      unfold sliceAt
      dsimp only
      rw [if_pos (by omega), Int.toNat_natCast]
    · show (if (n : Int) ≤ 12 then _ else _) = _
      rw [if_neg (by omega), hk', ho']
      dsimp only [bind, Option.bind]
      rw [if_pos (by omega), Int.toNat_natCast, hs.view hkind, List.getElem?_drop, hd]
      dsimp only
      unfold sliceAt
      dsimp only
      rw [if_pos (by omega), Int.toNat_natCast, Int.toNat_natCast]

theorem naValid_of_valid {a : AArray} {v w : NaArr} (hs : NaSet a v w) {i : Nat} (h : ValidAt a i) : naValid w i = some true := by
  unfold naValid
  have hb := hs.b0
  rcases h with h | ⟨bits, h, h0, hbit⟩
  · rw [h] at hb; rw [← Option.some.inj hb]
  · rw [h] at hb
    rw [← Option.some.inj hb, hs.offset]
    dsimp only
    rw [if_pos (by omega), show (i : Int) + a.offset = a.offset + i by omega]
    exact hbit
theorem naValid_of_null {a : AArray} {v w : NaArr} (hs : NaSet a v w) {i : Nat} (h : NullAt a i) : naValid w i = some false := by
  unfold naValid
  have hb := hs.b0
  obtain ⟨bits, h, h0, hbit⟩ := h
  rw [h] at hb
  rw [← Option.some.inj hb, hs.offset]
  dsimp only
  rw [if_pos (by omega), show (i : Int) + a.offset = a.offset + i by omega]
  exact hbit

end Verif
