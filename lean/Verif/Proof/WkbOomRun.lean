import Verif.Proof.WkbOom
/-!
# Histories of the WKB writer whose requests may be refused
-/
namespace Verif.WOom
open Verif Spec
open Verif.Oom (ENOMEM)

variable {mem : Nat → Bool} {junk : Nat → Nat → Bool}

/-- The state afterwards, whatever the code. -/
def Out {σ α : Type} (P : σ → Prop) : Res σ α → Prop
  | .ok _ s' => P s'
  | .err _ s' => P s'
  | .ub => True

/-- Whatever the outcome, a relation holds between the states before and after. -/
def Keeps {σ α : Type} (R : σ → σ → Prop) (x : M σ α) : Prop := ∀ s, Out (R s) (x s)

theorem Keeps.bind {σ α β : Type} {R : σ → σ → Prop} (ht : ∀ a b c, R a b → R b c → R a c) {x : M σ α} {f : α → M σ β} (h : Keeps R x)
    (hf : ∀ a, Keeps R (f a)) : Keeps R (x >>= f) := by
  intro s
  rw [M.bind_run]
  have h1 := h s
  revert h1
  cases x s with
  | ok a s' =>
    intro h1
    have h2 := hf a s'
    revert h2
    show Out (R s') (f a s') → Out (R s) (f a s')
    cases f a s' with
    | ok _ s'' => exact ht _ _ _ h1
    | err _ s'' => exact ht _ _ _ h1
    | ub => intro _; trivial
  | err rc s' => exact id
  | ub => intro _; trivial

theorem Keeps.mono {σ α : Type} {R R' : σ → σ → Prop} (hR : ∀ a b, R a b → R' a b) {x : M σ α} (h : Keeps R x) : Keeps R' x := by
  intro s
  have := h s
  revert this
  cases x s with
  | ok _ s' => exact hR _ _
  | err _ s' => exact hR _ _
  | ub => exact id

/-- Offsets and length are not touched. -/
def Same (s s' : OWkb) : Prop := s'.w.offsets = s.w.offsets ∧ s'.w.length = s.w.length

theorem Same.trans {a b c : OWkb} (h : Same a b) (h' : Same b c) : Same a c := ⟨h'.1.trans h.1, h'.2.trans h.2⟩

theorem same_bind {α β : Type} {x : M OWkb α} {f : α → M OWkb β} (h : Keeps Same x) (hf : ∀ a, Keeps Same (f a)) : Keeps Same (x >>= f) :=
  Keeps.bind (R := Same) (fun _ _ _ h h' => h.trans h') h hf

theorem same_lift {f : WkbW → WkbW} (h : ∀ w, (f w).offsets = w.offsets ∧ (f w).length = w.length) : Keeps Same (lift (M.modify f)) := fun s => h s.w

theorem keeps_bitsReserve (n : Nat) : Keeps Same (bitsReserve mem junk n) := by
  intro s
  unfold bitsReserve
  by_cases h : (s.sizeBits + n + 7) / 8 ≤ s.bitsCap
  · rw [if_pos h]; exact ⟨rfl, rfl⟩
  · rw [if_neg h]
    cases mem s.asked <;> exact ⟨rfl, rfl⟩

theorem keeps_bitsUnsafe (b : Bool) (n : Nat) : Keeps Same (bitsUnsafe b n) := by
  intro s
  unfold bitsUnsafe
  cases s.w.validity with
  | none => trivial
  | some l =>
    simp only []
    by_cases h : (s.sizeBits + n + 7) / 8 ≤ s.bitsCap
    · rw [if_pos h]; exact ⟨rfl, rfl⟩
    · rw [if_neg h]; trivial

theorem keeps_bitsAppend (b : Bool) : Keeps Same (bitsAppend mem junk b) :=
  same_bind (keeps_bitsReserve _) fun _ => keeps_bitsUnsafe _ _

theorem keeps_begin : Keeps Same (bitsBegin mem junk) := by
  intro s
  unfold bitsBegin
  by_cases h : s.w.validity.isNone = true
  · rw [if_pos h]
    by_cases h0 : s.w.length = 0
    · rw [if_pos h0]; trivial
    · rw [if_neg h0]
      have h1 := keeps_bitsReserve (mem := mem) (junk := junk) s.w.length s
      revert h1
      cases bitsReserve mem junk s.w.length s with
      | ok u s' =>
        intro h1
        have h2 := keeps_bitsUnsafe true (s.w.length - 1) s'
        revert h2
        simp only []
        cases bitsUnsafe true (s.w.length - 1) s' with
        | ok _ s'' => exact h1.trans
        | err _ s'' => exact h1.trans
        | ub => intro _; trivial
      | err rc s' => exact id
      | ub => exact id
  · rw [if_neg h]; exact ⟨rfl, rfl⟩

theorem keeps_bitsNull : Keeps Same (bitsNull mem junk) :=
  same_bind keeps_begin fun _ => same_bind (same_lift fun _ => ⟨rfl, rfl⟩) fun _ => keeps_bitsAppend _

/-- Only the data and the level tables may have changed. -/
structure Plain (s s' : OWkb) : Prop where
  offsets : s'.w.offsets = s.w.offsets
  length : s'.w.length = s.w.length
  validity : s'.w.validity = s.w.validity
  nulls : s'.w.nullCount = s.w.nullCount
  isNull : s'.w.featIsNull = s.w.featIsNull

theorem Plain.trans {a b c : OWkb} (h : Plain a b) (h' : Plain b c) : Plain a c :=
  ⟨h'.1.trans h.1, h'.2.trans h.2, h'.3.trans h.3, h'.4.trans h.4, h'.5.trans h.5⟩

theorem Plain.refl (s : OWkb) : Plain s s := ⟨rfl, rfl, rfl, rfl, rfl⟩

theorem plain_bind {α β : Type} {x : M OWkb α} {f : α → M OWkb β} (h : Keeps Plain x) (hf : ∀ a, Keeps Plain (f a)) : Keeps Plain (x >>= f) :=
  Keeps.bind (R := Plain) (fun _ _ _ h h' => h.trans h') h hf

structure PlainW (w w' : WkbW) : Prop where
  offsets : w'.offsets = w.offsets
  length : w'.length = w.length
  validity : w'.validity = w.validity
  nulls : w'.nullCount = w.nullCount
  isNull : w'.featIsNull = w.featIsNull

theorem keeps_lift {α : Type} {f : M WkbW α} (h : Keeps PlainW f) : Keeps Plain (lift f) := by
  intro s
  have := h s.w
  unfold WOom.lift
  revert this
  cases f s.w with
  | ok a w => exact fun h => ⟨h.1, h.2, h.3, h.4, h.5⟩
  | err rc w => exact fun h => ⟨h.1, h.2, h.3, h.4, h.5⟩
  | ub => exact id

theorem keeps_modify {f : WkbW → WkbW} (h : ∀ w, PlainW w (f w)) : Keeps Plain (lift (M.modify f)) :=
  keeps_lift fun w => h w

theorem keeps_level : Keeps Plain (lift wkbCheckLevel) := by
  refine keeps_lift fun w => ?_
  unfold wkbCheckLevel
  by_cases h : 0 ≤ w.level ∧ w.level ≤ 30
  · rw [if_pos h]; exact ⟨rfl, rfl, rfl, rfl, rfl⟩
  · rw [if_neg h]; exact ⟨rfl, rfl, rfl, rfl, rfl⟩

theorem keeps_entry (i : Nat) : Keeps Plain (levelEntry i : M OWkb Unit) := by
  intro s
  unfold levelEntry
  by_cases h : i < 32
  · rw [if_pos h]; exact ⟨rfl, rfl, rfl, rfl, rfl⟩
  · rw [if_neg h]; trivial

theorem keeps_values (bs : List Byte) : Keeps Plain (valuesAppend mem bs) := by
  intro s
  unfold valuesAppend valuesReserve
  rw [M.bind_run]
  simp only []
  by_cases h : s.w.values.length + bs.length ≤ s.valuesCap
  · rw [if_pos h]
    simp only [valuesUnsafe]
    rw [if_pos h]
    exact ⟨rfl, rfl, rfl, rfl, rfl⟩
  · rw [if_neg h]
    cases mem s.asked with
    | true =>
      simp only [if_true, valuesUnsafe]
      rw [if_pos (growByFactor_ge _ _)]
      exact ⟨rfl, rfl, rfl, rfl, rfl⟩
    | false => exact ⟨rfl, rfl, rfl, rfl, rfl⟩

theorem keeps_up : Keeps Plain (lift (M.modify fun s : WkbW => { s with level := s.level - 1 })) := keeps_modify fun _ => ⟨rfl, rfl, rfl, rfl, rfl⟩

theorem keeps_patch (l : Nat) : Keeps Plain (lift (do
    wkbPatch l
    M.modify fun s => { s with level := s.level - 1 } : M WkbW Unit)) := by
  refine keeps_lift fun w => ?_
  rw [M.bind_run]
  unfold wkbPatch
  by_cases h : w.sizePos l < 0
  · rw [if_pos h]; trivial
  · rw [if_neg h]
    cases bufWrite w.values (w.sizePos l).toNat (leBytes 4 (w.size l)) with
    | none => trivial
    | some v => exact ⟨rfl, rfl, rfl, rfl, rfl⟩

theorem keeps_get {β : Type} {f : OWkb → M OWkb β} (h : ∀ s, Out (Plain s) (f s s)) :
    Keeps Plain (M.get >>= f) := fun s => h s

theorem plain_handler (e : Event) (he : e ≠ .featStart) (hn : e ≠ .nullFeat) (hf : e ≠ .featEnd) : Keeps Plain (handler mem junk e) := by
  cases e with
  | featStart => exact absurd rfl he
  | nullFeat => exact absurd rfl hn
  | geomStart gt d =>
    refine plain_bind keeps_level fun l => plain_bind (keeps_entry _) fun _ => plain_bind (keeps_modify fun _ => ⟨rfl, rfl, rfl, rfl, rfl⟩) fun _ =>
      plain_bind (keeps_values _) fun _ => plain_bind (keeps_values _) fun _ => ?_
    split
    · exact plain_bind (keeps_modify fun _ => ⟨rfl, rfl, rfl, rfl, rfl⟩) fun _ => keeps_values _
    · exact fun s => ⟨rfl, rfl, rfl, rfl, rfl⟩
  | ringStart =>
    exact plain_bind keeps_level fun l => plain_bind (keeps_entry _) fun _ => plain_bind (keeps_modify fun _ => ⟨rfl, rfl, rfl, rfl, rfl⟩) fun _ =>
      keeps_values _
  | coords nv cs =>
    exact plain_bind keeps_level fun l => plain_bind (keeps_entry _) fun _ => plain_bind (keeps_modify fun _ => ⟨rfl, rfl, rfl, rfl, rfl⟩) fun _ =>
      keeps_values _
  | ringEnd =>
    refine plain_bind keeps_level fun l => plain_bind (keeps_entry _) fun _ => keeps_get fun s => ?_
    by_cases h : s.valuesCap = 0
    · rw [if_pos h]; exact ⟨rfl, rfl, rfl, rfl, rfl⟩
    · rw [if_neg h]; exact keeps_patch l s
  | geomEnd =>
    refine plain_bind keeps_level fun l => plain_bind (keeps_entry _) fun _ => keeps_get fun s => ?_
    by_cases h : s.valuesCap = 0
    · rw [if_pos h]; exact ⟨rfl, rfl, rfl, rfl, rfl⟩
    · rw [if_neg h]
      by_cases h1 : s.w.geometryType l ≠ 1
      · rw [if_pos h1]; exact keeps_patch l s
      · rw [if_neg h1]
        by_cases h2 : s.w.size l = 0
        · rw [if_pos h2]
          cases nvals (s.w.dimensions l) with
          | none => exact ⟨rfl, rfl, rfl, rfl, rfl⟩
          | some n => exact plain_bind (keeps_values _) (fun _ => keeps_up) s
        · rw [if_neg h2]; exact keeps_up s
  | featEnd => exact absurd rfl hf

theorem Plain.same {a b : OWkb} (h : Plain a b) : Same a b := ⟨h.1, h.2⟩

theorem keeps_handler (e : Event) (he : e ≠ .featStart) : Keeps Same (handler mem junk e) := by
  by_cases hn : e = .nullFeat
  · subst hn
    exact same_lift fun _ => ⟨rfl, rfl⟩
  by_cases hf : e = .featEnd
  · subst hf
    intro s
    show Out (Same s) (featEnd mem junk s)
    unfold featEnd
    by_cases h : s.w.featIsNull = true
    · rw [if_pos h]; exact keeps_bitsNull s
    · rw [if_neg h]
      unfold bitsValid
      by_cases h2 : s.w.validity.isSome = true
      · rw [if_pos h2]; exact keeps_bitsAppend true s
      · rw [if_neg h2]; exact ⟨rfl, rfl⟩
  · exact (plain_handler e he hn hf).mono fun _ _ h => h.same

/-- There are no more offsets than elements. -/
def Short (s s' : OWkb) : Prop := s.w.offsets.length ≤ s.w.length → s'.w.offsets.length ≤ s'.w.length

theorem Short.trans {a b c : OWkb} (h : Short a b) (h' : Short b c) : Short a c := fun x => h' (h x)

theorem Same.short {a b : OWkb} (h : Same a b) : Short a b := fun x => by rw [h.1, h.2]; exact x

theorem short_offsets (v : Int) (s : OWkb) (h : s.w.offsets.length + 1 ≤ s.w.length) :
    Out (fun s' => s'.w.offsets.length ≤ s'.w.length) (offsetsAppend mem v s) := by
  unfold offsetsAppend
  by_cases h1 : 4 * s.w.offsets.length + 4 ≤ s.offsetsCap
  · rw [if_pos h1]; simpa [Out] using h
  · rw [if_neg h1]
    cases mem s.asked with
    | true => simpa [Out] using h
    | false => simp [Out]

theorem short_handler (e : Event) : Keeps Short (handler mem junk e) := by
  by_cases he : e = .featStart
  · subst he
    intro s
    show Out (Short s) (featStart mem s)
    unfold featStart
    simp only []
    by_cases h : s.w.values.length > 2147483647
    · rw [if_pos h]
      intro x
      exact Nat.le_succ_of_le x
    · rw [if_neg h]
      have hq := fun (x : s.w.offsets.length ≤ s.w.length) => short_offsets (mem := mem) (s.w.values.length : Int)
        { s with w := { s.w with level := 0, size := upd s.w.size 0 0, length := s.w.length + 1, featIsNull := false } } (Nat.succ_le_succ x)
      revert hq
      cases offsetsAppend mem (s.w.values.length : Int)
        { s with w := { s.w with level := 0, size := upd s.w.size 0 0, length := s.w.length + 1, featIsNull := false } } with
      | ok _ s' => exact id
      | err _ s' => exact id
      | ub => intro _; trivial
  · exact (keeps_handler e he).mono fun _ _ h => h.short

theorem short_feed : ∀ (t : List Event), Keeps Short (feed (handler mem junk) t)
  | [] => fun s => id
  | e :: t => by
    rw [feed_bind]
    exact Keeps.bind (R := Short) (fun _ _ _ h h' => h.trans h') (short_handler e) fun _ => short_feed t

theorem short_appendNull : Keeps Short (appendNull mem junk) := by
  intro s
  show Out (Short s) ((offsetsAppend mem (toI32 s.w.values.length) >>= fun _ => lift (M.modify fun w => { w with length := w.length + 1 }) >>= fun _ =>
    bitsNull mem junk) s)
  rw [M.bind_run]
  unfold offsetsAppend
  have step : ∀ s1 : OWkb, (s.w.offsets.length ≤ s.w.length → s1.w.offsets.length ≤ s1.w.length + 1) →
      Out (Short s) ((lift (M.modify fun w => { w with length := w.length + 1 }) >>= fun _ => bitsNull mem junk) s1) := by
    intro s1 h1
    rw [M.bind_run]
    show Out (Short s) (bitsNull mem junk { s1 with w := { s1.w with length := s1.w.length + 1 } })
    have h2 := keeps_bitsNull (mem := mem) (junk := junk) { s1 with w := { s1.w with length := s1.w.length + 1 } }
    revert h2
    cases bitsNull mem junk { s1 with w := { s1.w with length := s1.w.length + 1 } } with
    | ok _ s2 => exact fun h2 x => by rw [h2.1, h2.2]; exact h1 x
    | err _ s2 => exact fun h2 x => by rw [h2.1, h2.2]; exact h1 x
    | ub => intro _; trivial
  by_cases h : 4 * s.w.offsets.length + 4 ≤ s.offsetsCap
  · rw [if_pos h]
    exact step _ fun x => by simpa using x
  · rw [if_neg h]
    cases mem s.asked with
    | true => exact step _ fun x => by simpa using x
    | false => exact fun _ => Nat.zero_le _

theorem rel_self (s : OWkb) : Rel False s s.w := ⟨rfl, rfl, fun h => h.elim⟩

def addBits (e : Option (List Byte)) (v : Option (List Bool)) (n : Nat) : Option (Option (List Bool)) :=
  match e with
  | none => (bitsAppendNull v n).map some
  | some _ => some (bitsAppendValid v)

/-- What adding an element does to a writer that gets all its memory. -/
structure Adds (e : Option (List Byte)) (b b' : WkbW) : Prop where
  values : b'.values = b.values ++ e.getD []
  offsets : b'.offsets = b.offsets ++ [toI32 b.values.length]
  length : b'.length = b.length + 1
  nulls : b'.nullCount = b.nullCount + if e.isNone then 1 else 0
  validity : some b'.validity = addBits e b.validity (b.length + 1)

/-- What a call does. -/
structure Step (mem : Nat → Bool) (ex : Prop) (o : Option Geom) (s : OWkb) (b : WkbW) (rc : Code) (s' : OWkb) : Prop where
  inv : Inv s'
  asked : s.asked ≤ s'.asked
  short : Short s s'
  code : (rc = 0 ∧ Granted mem s s' ∧ ∃ b', Rel ex s' b' ∧ Adds (wanted o) b b') ∨ (rc = ENOMEM ∧ Refused mem s s') ∨
    (rc = EOVERFLOW ∧ Granted mem s s' ∧ 2147483647 < b.values.length)

theorem step_of_good {ex : Prop} {o : Option Geom} {s : OWkb} {b : WkbW} {x : Res OWkb Unit} {y : Res WkbW Unit} (hg : Good mem ex s x y)
    (hs : Out (Short s) x) (hy : (∃ b', y = .ok () b' ∧ Adds (wanted o) b b') ∨ (2147483647 < b.values.length ∧ ∃ b', y = .err EOVERFLOW b')) :
    ∃ rc s', (match x with | .ok _ s => some ((0, none), s) | .err rc s => some ((rc, none), s) | .ub => none :
      Option ((Code × Option BinArray) × OWkb)) = some ((rc, none), s') ∧ Step mem ex o s b rc s' := by
  cases x with
  | ok a s' =>
    obtain ⟨b', h1, h2, h3, h4⟩ := hg
    refine ⟨0, s', rfl, h2, h4.1, hs, Or.inl ⟨rfl, h4, b', h3, ?_⟩⟩
    rcases hy with ⟨b2, e, h⟩ | ⟨_, b2, e⟩
    · rw [e] at h1; cases h1; exact h
    · rw [e] at h1; cases h1
  | err rc s' =>
    obtain ⟨h1, h2, h3⟩ := hg
    refine ⟨rc, s', rfl, h1, h2, hs, ?_⟩
    rcases h3 with h3 | ⟨g, b', e⟩
    · exact Or.inr (Or.inl h3)
    · rcases hy with ⟨b2, e2, _⟩ | ⟨hl, b2, e2⟩
      · rw [e2] at e; cases e
      · rw [e2] at e; cases e; exact Or.inr (Or.inr ⟨rfl, g, hl⟩)
  | ub =>
    have : y = .ub := hg
    rcases hy with ⟨b2, e2, _⟩ | ⟨_, b2, e2⟩ <;> rw [e2] at this <;> cases this

theorem over_featStart {b : WkbW} (h : 2147483647 < b.values.length) (t : List Event) : ∃ b', feed wkbHandler (.featStart :: t) b = .err EOVERFLOW b' := by
  refine ⟨{ b with level := 0, size := upd b.size 0 0, length := b.length + 1, featIsNull := false }, ?_⟩
  rw [feed_bind, M.bind_run]
  have : wkbHandler .featStart b = .err EOVERFLOW { b with level := 0, size := upd b.size 0 0, length := b.length + 1, featIsNull := false } := by
    show wkbFeatStart b = _
    unfold wkbFeatStart
    rw [if_pos h]
  rw [this]

theorem says_step {c : WkbCall} {o : Option Geom} (h : c.Says o) {ex : Prop} {s : OWkb} {b : WkbW} (hi : Inv s) (hr : Rel ex s b) :
    ∃ rc s', c.run mem junk s = some ((rc, none), s') ∧ Step mem ex o s b rc s' := by
  cases h with
  | @feature g t ht hc hh =>
    refine step_of_good (sim_feed t ex s b hi hr) (short_feed t s) ?_
    by_cases hl : b.values.length ≤ 2147483647
    · obtain ⟨b', h1, h2, h3, h4, h5, h6⟩ := visit_run ht hc hh b hl
      exact Or.inl ⟨b', h1, h2, by rw [h3, toI32_of_le hl], h4, by rw [h5]; rfl, by rw [h6]; rfl⟩
    · obtain ⟨t', _, rfl⟩ := ht
      exact Or.inr ⟨by omega, over_featStart (by omega) _⟩
  | null =>
    refine step_of_good (sim_feed _ ex s b hi hr) (short_feed _ s) ?_
    by_cases hl : b.values.length ≤ 2147483647
    · obtain ⟨b', l, h1, h2, h3, h4, h5, h6, h7⟩ := visitNull_run b hl
      exact Or.inl ⟨b', h1, by rw [h4]; simp [wanted], by rw [h5, toI32_of_le hl], h6, by rw [h7]; rfl, by
        show some b'.validity = (bitsAppendNull b.validity (b.length + 1)).map some
        rw [h2, h3]; rfl⟩
    · exact Or.inr ⟨by omega, over_featStart (by omega) _⟩
  | appendNull =>
    refine step_of_good (sim_appendNull ex s b hi hr) (short_appendNull s) (Or.inl ?_)
    obtain ⟨b', l, h1, h2, h3, h4, h5, h6, h7⟩ := appendNull_run b
    exact ⟨b', h1, by rw [h4]; simp [wanted], h5, h6, by rw [h7]; rfl, by
      show some b'.validity = (bitsAppendNull b.validity (b.length + 1)).map some
      rw [h2, h3]; rfl⟩

/-- Calls that all succeed. -/
theorem fine_run : ∀ (cs : List WkbCall) (gs : List (Option Geom)), SayAll cs gs → ∀ {ex : Prop} {s : OWkb} {b : WkbW}, Inv s → Rel ex s b →
    ∀ {rs s'}, wkbRuns mem junk cs s = some (rs, s') → AllFine rs →
    ∃ b', Rel ex s' b' ∧ Inv s' ∧ Granted mem s s' ∧ Short s s' ∧ b'.values = b.values ++ elemBytes (gs.map wanted) ∧ b'.length = b.length + gs.length ∧
      (b'.values.length ≤ 2147483647 → b'.offsets = b.offsets ++ starts b.values.length (gs.map wanted) ∧
        ∀ els, b.Has els → b'.Has (els ++ gs.map wanted))
  | [], [], _, ex, s, b, hi, hr, rs, s', hw, _ => by
    cases hw
    exact ⟨b, hr, hi, Granted.refl s, fun x => x, by simp [elemBytes], rfl, fun _ => ⟨by simp [starts], fun els h => by simpa using h⟩⟩
  | c :: cs, g :: gs, h, ex, s, b, hi, hr, rs, s', hw, hf => by
    obtain ⟨rc, s1, e1, st⟩ := says_step (mem := mem) (junk := junk) h.1 hi hr
    unfold wkbRuns at hw
    rw [e1] at hw
    simp only [Option.map_eq_some_iff, Prod.mk.injEq] at hw
    obtain ⟨⟨rs1, s2⟩, e2, e3, e4⟩ := hw
    simp only [] at e3 e4
    subst e3 e4
    have h0 : rc = 0 := hf (rc, none) (by simp)
    have hcode : rc = 0 ∧ Granted mem s s1 ∧ ∃ b', Rel ex s1 b' ∧ Adds (wanted g) b b' := by
      rcases st.code with h | ⟨h, _⟩ | ⟨h, _⟩
      · exact h
      · rw [h0] at h; exact absurd h (by decide)
      · rw [h0] at h; exact absurd h (by decide)
    obtain ⟨_, hg1, b1, hr1, ad⟩ := hcode
    obtain ⟨b2, r2, i2, g2, sh2, v2, l2, o2⟩ := fine_run cs gs h.2 st.inv hr1 e2 (fun r hr => hf r (by simp [hr]))
    have hv : b2.values = b.values ++ elemBytes ((g :: gs).map wanted) := by
      rw [v2, ad.values, List.append_assoc]
      congr 1
    refine ⟨b2, r2, i2, hg1.trans g2, st.short.trans sh2, hv, by rw [l2, ad.length, List.length_cons]; omega, fun hl => ?_⟩
    obtain ⟨p1, p2⟩ := o2 hl
    have hb : b.values.length ≤ 2147483647 := by
      have : b2.values.length = b.values.length + (elemBytes ((g :: gs).map wanted)).length := by rw [hv, List.length_append]
      omega
    refine ⟨?_, fun els he => ?_⟩
    · rw [p1, ad.offsets, ad.values, toI32_of_le hb, List.length_append, List.append_assoc]
      rfl
    · have := p2 (els ++ [wanted g]) ?_
      · rw [List.append_assoc] at this; exact this
      · have ho : b1.offsets = b.offsets ++ [(b.values.length : Int)] := by rw [ad.offsets, toI32_of_le hb]
        cases hw : wanted g with
        | none =>
          rw [hw] at ad
          have hval : some b1.validity = (bitsAppendNull b.validity (b.length + 1)).map some := ad.validity
          exact has_null he (by rw [← he.length]; exact hval) ho (by simpa using ad.values) ad.length ad.nulls
        | some bs =>
          rw [hw] at ad
          exact has_some he (Option.some.inj ad.validity) ho ad.values ad.length ad.nulls
  | [], _ :: _, h, _, _, _, _, _, _, _, _, _ => h.elim
  | _ :: _, [], h, _, _, _, _, _, _, _, _, _ => h.elim

theorem inv_init (raw : WkbW) (k : Nat) : Inv (init raw k) := ⟨Nat.le_refl _, fun _ => rfl, fun l h => (by cases h), fun _ => rfl⟩

theorem inv_moved (s : OWkb) (k : Nat) : Inv { moved s with asked := k } := ⟨Nat.le_refl _, fun _ => rfl, fun l h => (by cases h), fun _ => rfl⟩

/-- Validation reads no offset that is not there. -/
theorem building_safe (a : BinArray) (h : 0 < a.offsets.length) : finishBuilding a ≠ none := by
  have core : ∀ c1 : Prop, [Decidable c1] → (if c1 then some (.error EINVAL)
      else if a.length ≠ 0 ∧ a.offsets.length < a.length + 1 then some (.error EINVAL)
      else if a.offsets.length = 0 then some (.ok ())
      else match a.offsets[0]?, a.offsets[a.length]? with
        | some first, some last => if first < 0 ∨ last < 0 ∨ (a.data.length : Int) < last then some (.error EINVAL) else some (.ok ())
        | _, _ => none : Option (Except Code Unit)) ≠ none := by
    intro c1 _
    by_cases h1 : c1
    · rw [if_pos h1]; simp
    · rw [if_neg h1]
      by_cases h2 : a.length ≠ 0 ∧ a.offsets.length < a.length + 1
      · rw [if_pos h2]; simp
      · rw [if_neg h2, if_neg (by omega)]
        have h3 : a.length < a.offsets.length := by omega
        rw [List.getElem?_eq_getElem h, List.getElem?_eq_getElem h3]
        show (if _ then _ else _) ≠ none
        split <;> simp
  exact core _

/-- How the last part of `finish` can go. -/
theorem finishArray_cases (s : OWkb) (ho : 0 < s.w.offsets.length) :
    (∃ s', finishArray mem s = some ((ENOMEM, none), s') ∧ s'.w = s.w ∧ s' = { s with asked := s.asked + 1 } ∧ Refused mem s s') ∨
    (finishArray mem s = none ∧ mem s.asked = true ∧ mem (s.asked + 1) = false) ∨
    (∃ rc k, finishArray mem s = some ((rc, some (built s)), { moved s with asked := k }) ∧
      ((rc = ENOMEM ∧ Refused mem s { moved s with asked := k }) ∨
       (Granted mem s { moved s with asked := k } ∧ ((finishBuilding (built s) = some (.ok ()) ∧ rc = 0) ∨ finishBuilding (built s) = some (.error rc))))) := by
  unfold finishArray arrayInit
  cases h1 : mem s.asked with
  | false => exact Or.inl ⟨_, rfl, rfl, rfl, s.asked, Nat.le_refl _, Nat.lt_succ_self _, h1⟩
  | true =>
    cases h2 : mem (s.asked + 1) with
    | false => exact Or.inr (Or.inl ⟨rfl, rfl, rfl⟩)
    | true =>
      refine Or.inr (Or.inr ?_)
      simp only [if_true]
      by_cases h3 : s.valuesCap = 0 ∧ mem (s.asked + 2) = false
      · rw [if_pos h3]
        exact ⟨_, _, rfl, Or.inl ⟨rfl, s.asked + 2, by omega, Nat.lt_succ_self _, h3.2⟩⟩
      · rw [if_neg h3]
        have hgr : Granted mem s { moved s with asked := if s.valuesCap = 0 then s.asked + 2 + 1 else s.asked + 2 } := by
          refine ⟨?_, fun k k1 k2 => ?_⟩
          · show s.asked ≤ if s.valuesCap = 0 then s.asked + 2 + 1 else s.asked + 2
            split <;> omega
          · have k2' : k < if s.valuesCap = 0 then s.asked + 2 + 1 else s.asked + 2 := k2
            by_cases e0 : k = s.asked
            · rw [e0]; exact h1
            · by_cases e1 : k = s.asked + 1
              · rw [e1]; exact h2
              · by_cases hc : s.valuesCap = 0
                · rw [if_pos hc] at k2'
                  have e2 : k = s.asked + 2 := by omega
                  rw [e2]
                  cases hm : mem (s.asked + 2) with
                  | true => rfl
                  | false => exact absurd ⟨hc, hm⟩ h3
                · rw [if_neg hc] at k2'
                  omega
        have hb : built { s with asked := s.asked + 2 } = built s := rfl
        simp only [hb]
        cases hf : finishBuilding (built s) with
        | none => exact absurd hf (building_safe _ ho)
        | some r =>
          cases r with
          | error rc => exact ⟨rc, _, rfl, Or.inr ⟨hgr, Or.inr rfl⟩⟩
          | ok u => exact ⟨0, _, rfl, Or.inr ⟨hgr, Or.inl ⟨rfl, rfl⟩⟩⟩

/-- The array `finish` makes. -/
def wouldBe (w : WkbW) : BinArray := ⟨w.length, w.nullCount, w.validity, w.offsets ++ [(w.values.length : Int)], w.values⟩

/-- All the ways `finish` can go. -/
theorem finish_cases (s : OWkb) (hi : Inv s) :
    (2147483647 < s.w.values.length ∧ finish mem s = some ((EOVERFLOW, none), s)) ∨
    (s.w.values.length ≤ 2147483647 ∧
      ((∃ s', finish mem s = some ((ENOMEM, none), s') ∧ Inv s' ∧ Refused mem s s') ∨
       (finish mem s = none ∧ ∃ k, s.asked ≤ k ∧ k ≤ s.asked + 1 ∧ mem k = true ∧ mem (k + 1) = false) ∨
       (∃ rc s1 k, finish mem s = some ((rc, some (wouldBe s.w)), { moved s1 with asked := k }) ∧
         ((rc = ENOMEM ∧ Refused mem s { moved s1 with asked := k }) ∨
          (Granted mem s { moved s1 with asked := k } ∧ ((finishBuilding (wouldBe s.w) = some (.ok ()) ∧ rc = 0) ∨ finishBuilding (wouldBe s.w) = some (.error rc))))))) := by
  by_cases hl : 2147483647 < s.w.values.length
  · refine Or.inl ⟨hl, ?_⟩
    unfold finish
    rw [if_pos hl]
  · refine Or.inr ⟨by omega, ?_⟩
    unfold finish
    rw [if_neg hl]
    have key : ∀ s1 : OWkb, s1.w = { s.w with offsets := s.w.offsets ++ [(s.w.values.length : Int)] } → Inv s1 → Granted mem s s1 → s1.asked ≤ s.asked + 1 →
        ((∃ s', finishArray mem s1 = some ((ENOMEM, none), s') ∧ Inv s' ∧ Refused mem s s') ∨
         (finishArray mem s1 = none ∧ ∃ k, s.asked ≤ k ∧ k ≤ s.asked + 1 ∧ mem k = true ∧ mem (k + 1) = false) ∨
         (∃ rc s2 k, finishArray mem s1 = some ((rc, some (wouldBe s.w)), { moved s2 with asked := k }) ∧
           ((rc = ENOMEM ∧ Refused mem s { moved s2 with asked := k }) ∨
            (Granted mem s { moved s2 with asked := k } ∧ ((finishBuilding (wouldBe s.w) = some (.ok ()) ∧ rc = 0) ∨ finishBuilding (wouldBe s.w) = some (.error rc)))))) := by
      intro s1 hw hi1 hg ha
      have hb : built s1 = wouldBe s.w := by unfold built; rw [hw]; rfl
      have href : ∀ s', Refused mem s1 s' → Refused mem s s' := fun s' ⟨k, k1, k2, k3⟩ => ⟨k, Nat.le_trans hg.1 k1, k2, k3⟩
      rcases finishArray_cases (mem := mem) s1 (by rw [hw]; simp) with ⟨s', e, e1, e2, r⟩ | ⟨e, m1, m2⟩ | ⟨rc, k, e, h⟩
      · refine Or.inl ⟨s', e, ?_, href _ r⟩
        rw [e2]
        exact ⟨hi1.fits, hi1.empty, hi1.bits, hi1.noBits⟩
      · exact Or.inr (Or.inl ⟨e, s1.asked, hg.1, ha, m1, m2⟩)
      · rw [hb] at e h
        refine Or.inr (Or.inr ⟨rc, s1, k, e, ?_⟩)
        rcases h with ⟨h1, h2⟩ | ⟨h1, h2⟩
        · exact Or.inl ⟨h1, href _ h2⟩
        · exact Or.inr ⟨hg.trans h1, h2⟩
    unfold offsetsAppend
    by_cases h : 4 * s.w.offsets.length + 4 ≤ s.offsetsCap
    · rw [if_pos h]
      exact key _ rfl ⟨hi.fits, hi.empty, hi.bits, hi.noBits⟩ (Granted.same rfl) (Nat.le_succ _)
    · rw [if_neg h]
      cases hm : mem s.asked with
      | true =>
        exact key { s with asked := s.asked + 1, offsetsCap := growByFactor s.offsetsCap (4 * s.w.offsets.length + 4), w := { s.w with offsets := s.w.offsets ++ [(s.w.values.length : Int)] } }
          rfl ⟨hi.fits, hi.empty, hi.bits, hi.noBits⟩ (Granted.one rfl hm) (Nat.le_refl _)
      | false =>
        exact Or.inl ⟨_, rfl, ⟨hi.fits, hi.empty, hi.bits, hi.noBits⟩, s.asked, Nat.le_refl _, Nat.lt_succ_self _, hm⟩

/-- A writer that holds nothing. -/
theorem begins_inv {s : OWkb} (h : WkbBegins mem s) : Inv s ∧ s.w.Fresh ∧ s.sizeBits = 0 := by
  rcases h with ⟨raw, k, rfl⟩ | ⟨s1, rc, a, e⟩
  · exact ⟨inv_init raw k, ⟨rfl, rfl, rfl, rfl, rfl⟩, rfl⟩
  · have hm : ∃ s2 k, s = { moved s2 with asked := k } := by
      have fa : ∀ s2, finishArray mem s2 = some ((rc, some a), s) → ∃ s3 k, s = { moved s3 with asked := k } := by
        intro s2 e2
        unfold finishArray at e2
        cases ha : arrayInit mem s2 with
        | ub => rw [ha] at e2; cases e2
        | err rc' s3 => rw [ha] at e2; cases e2
        | ok u s3 =>
          rw [ha] at e2
          simp only [] at e2
          split at e2
          · cases e2; exact ⟨_, _, rfl⟩
          · split at e2
            · cases e2
            · cases e2; exact ⟨_, _, rfl⟩
            · cases e2; exact ⟨_, _, rfl⟩
      unfold finish at e
      split at e
      · cases e
      · split at e
        · cases e
        · cases e
        · exact fa _ e
    obtain ⟨s2, k, rfl⟩ := hm
    exact ⟨inv_moved s2 k, ⟨rfl, rfl, rfl, rfl, rfl⟩, rfl⟩

/-- Any calls but `finish`: sizes and capacities still agree, and there are no more offsets than elements. -/
theorem any_run : ∀ (cs : List WkbCall), .finish ∉ cs → ∀ {s : OWkb}, Inv s → ∀ {rs s'}, wkbRuns mem junk cs s = some (rs, s') →
    Inv s' ∧ Short s s'
  | [], _, s, hi, rs, s', hw => by cases hw; exact ⟨hi, fun x => x⟩
  | c :: cs, hn, s, hi, rs, s', hw => by
    unfold wkbRuns at hw
    have one : ∀ {r s1}, c.run mem junk s = some (r, s1) → Inv s1 ∧ Short s s1 := by
      intro r s1 e
      have conv : ∀ (x : Res OWkb Unit) (y : Res WkbW Unit), Good mem False s x y → Out (Short s) x →
          (match x with | .ok _ s => some ((0, none), s) | .err rc s => some ((rc, none), s) | .ub => none : Option ((Code × Option BinArray) × OWkb)) = some (r, s1) →
          Inv s1 ∧ Short s s1 := by
        intro x y hg hs he
        cases x with
        | ok a s2 => cases he; obtain ⟨b', _, h2, _⟩ := hg; exact ⟨h2, hs⟩
        | err rc s2 => cases he; exact ⟨hg.1, hs⟩
        | ub => cases he
      cases c with
      | visit t => exact conv _ _ (sim_feed t False s s.w hi (rel_self s)) (short_feed t s) e
      | appendNull => exact conv _ _ (sim_appendNull False s s.w hi (rel_self s)) (short_appendNull s) e
      | finish => exact absurd (List.mem_cons_self ..) hn
    cases e : c.run mem junk s with
    | none => rw [e] at hw; cases hw
    | some p =>
      obtain ⟨r, s1⟩ := p
      rw [e] at hw
      simp only [Option.map_eq_some_iff, Prod.mk.injEq] at hw
      obtain ⟨⟨rs1, s2⟩, e2, _, e4⟩ := hw
      simp only [] at e4
      subst e4
      obtain ⟨i1, sh1⟩ := one e
      obtain ⟨i2, sh2⟩ := any_run cs (fun h => hn (List.mem_cons_of_mem _ h)) i1 e2
      exact ⟨i2, sh1.trans sh2⟩

/-- No null so far. -/
def NoNulls (s : OWkb) : Prop := s.w.validity = none ∧ s.w.nullCount = 0

theorem clean_start (s : OWkb) (h : NoNulls s) : Out (fun s' => NoNulls s' ∧ s'.w.featIsNull = false) (handler mem junk .featStart s) := by
  show Out _ (featStart mem s)
  unfold featStart
  simp only []
  by_cases h1 : s.w.values.length > 2147483647
  · rw [if_pos h1]; exact ⟨h, rfl⟩
  · rw [if_neg h1]
    unfold offsetsAppend
    simp only []
    by_cases h2 : 4 * s.w.offsets.length + 4 ≤ s.offsetsCap
    · rw [if_pos h2]; exact ⟨h, rfl⟩
    · rw [if_neg h2]
      cases mem s.asked <;> exact ⟨h, rfl⟩

theorem clean_handler (e : Event) (hn : e ≠ .nullFeat) (s : OWkb) (h : NoNulls s ∧ s.w.featIsNull = false) :
    Out (fun s' => NoNulls s' ∧ s'.w.featIsNull = false) (handler mem junk e s) := by
  by_cases he : e = .featStart
  · subst he; exact clean_start s h.1
  by_cases hf : e = .featEnd
  · subst hf
    show Out _ (featEnd mem junk s)
    unfold featEnd bitsValid
    rw [if_neg (by rw [h.2]; simp), if_neg (by rw [h.1.1]; simp)]
    exact h
  · have hp := plain_handler (mem := mem) (junk := junk) e he hn hf s
    revert hp
    cases handler mem junk e s with
    | ok _ s' => exact fun p => ⟨⟨p.validity.trans h.1.1, p.nulls.trans h.1.2⟩, p.isNull.trans h.2⟩
    | err _ s' => exact fun p => ⟨⟨p.validity.trans h.1.1, p.nulls.trans h.1.2⟩, p.isNull.trans h.2⟩
    | ub => exact id

theorem clean_feed : ∀ (t : List Event), .nullFeat ∉ t → ∀ s : OWkb, NoNulls s ∧ s.w.featIsNull = false →
    Out (fun s' => NoNulls s' ∧ s'.w.featIsNull = false) (feed (handler mem junk) t s)
  | [], _, s, h => h
  | e :: t, hn, s, h => by
    rw [feed_bind, M.bind_run]
    have h1 := clean_handler (mem := mem) (junk := junk) e (fun h => hn (by rw [h]; exact List.mem_cons_self ..)) s h
    revert h1
    cases handler mem junk e s with
    | ok _ s' => exact clean_feed t (fun h => hn (List.mem_cons_of_mem _ h)) s'
    | err _ s' => exact id
    | ub => exact id

theorem clean_visit {t : List Event} (hn : .nullFeat ∉ t) (s : OWkb) (h : NoNulls s) : Out NoNulls (feed (handler mem junk) (.featStart :: t) s) := by
  rw [feed_bind, M.bind_run]
  have h1 := clean_start (mem := mem) (junk := junk) s h
  revert h1
  cases handler mem junk .featStart s with
  | ok _ s' =>
    intro h1
    have h2 := clean_feed (mem := mem) (junk := junk) t hn s' h1
    revert h2
    show Out _ (feed (handler mem junk) t s') → Out NoNulls (feed (handler mem junk) t s')
    cases feed (handler mem junk) t s' with
    | ok _ s' => exact fun h => h.1
    | err _ s' => exact fun h => h.1
    | ub => exact id
  | err _ s' => exact fun h => h.1
  | ub => exact id

theorem wkbRuns_cons {c : WkbCall} {cs s r s1} (h : c.run mem junk s = some (r, s1)) :
    wkbRuns mem junk (c :: cs) s = (wkbRuns mem junk cs s1).map fun p => (r :: p.1, p.2) := by
  rw [wkbRuns.eq_2, h]

theorem wkbRuns_cons_none {c : WkbCall} {cs s} (h : c.run mem junk s = none) : wkbRuns mem junk (c :: cs) s = none := by
  rw [wkbRuns.eq_2, h]

theorem wkbRuns_inv {c : WkbCall} {cs s rs s'} (h : wkbRuns mem junk (c :: cs) s = some (rs, s')) :
    ∃ r s1 rs1, c.run mem junk s = some (r, s1) ∧ wkbRuns mem junk cs s1 = some (rs1, s') ∧ rs = r :: rs1 := by
  cases e : c.run mem junk s with
  | none => rw [wkbRuns_cons_none e] at h; cases h
  | some p =>
    rw [wkbRuns_cons (r := p.1) (s1 := p.2) e] at h
    cases e2 : wkbRuns mem junk cs p.2 with
    | none => rw [e2] at h; cases h
    | some q => rw [e2] at h; cases h; exact ⟨p.1, p.2, q.1, rfl, e2, rfl⟩

theorem clean_run : ∀ (cs : List WkbCall), (∀ c ∈ cs, ∃ t, c = .visit (.featStart :: t) ∧ .nullFeat ∉ t) → ∀ {s : OWkb}, NoNulls s →
    ∀ {rs s'}, wkbRuns mem junk cs s = some (rs, s') → NoNulls s'
  | [], _, s, h, rs, s', hw => by cases hw; exact h
  | c :: cs, hc, s, h, rs, s', hw => by
    obtain ⟨t, rfl, hn⟩ := hc c (List.mem_cons_self ..)
    have h1 := clean_visit (mem := mem) (junk := junk) hn s h
    obtain ⟨r, s1, rs1, e, e', _⟩ := wkbRuns_inv hw
    refine clean_run cs (fun c h => hc c (List.mem_cons_of_mem _ h)) ?_ e'
    unfold WkbCall.run at e
    revert h1 e
    simp only []
    cases feed (handler mem junk) (.featStart :: t) s with
    | ok _ s2 => intro h1 e; cases e; exact h1
    | err _ s2 => intro h1 e; cases e; exact h1
    | ub => intro h1 e; cases e

theorem wkbRuns_append : ∀ (a b : List WkbCall) (s : OWkb), wkbRuns mem junk (a ++ b) s =
    match wkbRuns mem junk a s with
    | none => none
    | some (rs, s') => (wkbRuns mem junk b s').map fun p => (rs ++ p.1, p.2)
  | [], b, s => by
    show wkbRuns mem junk b s = (wkbRuns mem junk b s).map fun p => ([] ++ p.1, p.2)
    cases wkbRuns mem junk b s <;> rfl
  | c :: a, b, s => by
    simp only [List.cons_append]
    cases e : c.run mem junk s with
    | none => rw [wkbRuns_cons_none e, wkbRuns_cons_none e]
    | some p =>
      rw [wkbRuns_cons (r := p.1) (s1 := p.2) e, wkbRuns_cons (r := p.1) (s1 := p.2) e, wkbRuns_append a b p.2]
      cases wkbRuns mem junk a p.2 with
      | none => rfl
      | some q =>
        simp only [Option.map_some, Option.map_map]
        rfl

/-- A proper call that is no `finish` is never undefined. -/
theorem proper_step {c : WkbCall} (hp : c.Proper) (hc : c ≠ .finish) {s : OWkb} (hi : Inv s) : ∃ r s', c.run mem junk s = some (r, s') ∧ Inv s' := by
  have conv : ∀ (x : Res OWkb Unit) (y : Res WkbW Unit), Good mem False s x y → y ≠ .ub →
      ∃ r s1, (match x with | .ok _ s => some ((0, none), s) | .err rc s => some ((rc, none), s) | .ub => none : Option ((Code × Option BinArray) × OWkb)) = some (r, s1) ∧
      Inv s1 := by
    intro x y hg hy
    cases x with
    | ok a s2 => obtain ⟨b', _, h2, _⟩ := hg; exact ⟨_, _, rfl, h2⟩
    | err rc s2 => exact ⟨_, _, rfl, hg.1⟩
    | ub => exact absurd hg hy
  cases c with
  | visit t =>
    obtain ⟨t', rfl, hm⟩ := hp
    refine conv _ _ (sim_feed _ False s s.w hi (rel_self s)) ?_
    intro he
    have := nfeature t' s.w hm
    rw [he] at this
    exact this
  | appendNull =>
    refine conv _ _ (sim_appendNull False s s.w hi (rel_self s)) ?_
    obtain ⟨b', l, h1, _⟩ := appendNull_run s.w
    rw [h1]
    simp
  | finish => exact absurd rfl hc

/-- `finish` keeps sizes and capacities in order. -/
theorem finish_inv {s : OWkb} (hi : Inv s) {r s'} (h : finish mem s = some (r, s')) : Inv s' := by
  rcases finish_cases (mem := mem) s hi with ⟨_, e⟩ | ⟨_, ⟨s1, e, i, _⟩ | ⟨e, _⟩ | ⟨rc, s1, k, e, _⟩⟩
  · rw [e] at h; cases h; exact hi
  · rw [e] at h; cases h; exact i
  · rw [e] at h; cases h
  · rw [e] at h; cases h; exact inv_moved s1 k

/-- Proper calls: undefined only in a `finish` that is refused memory half-way. -/
theorem proper_run : ∀ (cs : List WkbCall), (∀ c ∈ cs, c.Proper) → ∀ {s : OWkb}, Inv s →
    (∃ rs s', wkbRuns mem junk cs s = some (rs, s') ∧ Inv s') ∨
    (∃ pre post rs s', cs = pre ++ .finish :: post ∧ wkbRuns mem junk pre s = some (rs, s') ∧
      ∃ k, s'.asked ≤ k ∧ k ≤ s'.asked + 1 ∧ mem k = true ∧ mem (k + 1) = false)
  | [], _, s, hi => Or.inl ⟨[], s, rfl, hi⟩
  | c :: cs, hp, s, hi => by
    have next : ∀ {r s1}, c.run mem junk s = some (r, s1) → Inv s1 →
        (∃ rs s', wkbRuns mem junk (c :: cs) s = some (rs, s') ∧ Inv s') ∨
        (∃ pre post rs s', c :: cs = pre ++ .finish :: post ∧ wkbRuns mem junk pre s = some (rs, s') ∧
          ∃ k, s'.asked ≤ k ∧ k ≤ s'.asked + 1 ∧ mem k = true ∧ mem (k + 1) = false) := by
      intro r s1 e i1
      rcases proper_run cs (fun c h => hp c (List.mem_cons_of_mem _ h)) i1 with ⟨rs, s', e', i'⟩ | ⟨pre, post, rs, s', e1, e2, e3⟩
      · refine Or.inl ⟨r :: rs, s', ?_, i'⟩
        unfold wkbRuns
        rw [e]
        simp only []
        rw [e']
        rfl
      · refine Or.inr ⟨c :: pre, post, r :: rs, s', by rw [e1]; rfl, ?_, e3⟩
        unfold wkbRuns
        rw [e]
        simp only []
        rw [e2]
        rfl
    by_cases hc : c = .finish
    · subst hc
      cases e : finish mem s with
      | some p => exact next (r := p.1) (s1 := p.2) e (finish_inv hi e)
      | none =>
        rcases finish_cases (mem := mem) s hi with ⟨_, e'⟩ | ⟨_, ⟨s1, e', _⟩ | ⟨_, hk⟩ | ⟨rc, s1, k, e', _⟩⟩
        · rw [e] at e'; cases e'
        · rw [e] at e'; cases e'
        · exact Or.inr ⟨[], cs, [], s, rfl, rfl, hk⟩
        · rw [e] at e'; cases e'
    · obtain ⟨r, s1, e, i1⟩ := proper_step (mem := mem) (junk := junk) (hp c (List.mem_cons_self ..)) hc hi
      exact next e i1

/-- Validation finds an array with too few offsets. -/
theorem building_offsets {a : BinArray} (h : finishBuilding a = some (.ok ())) (h0 : a.length ≠ 0) : a.length + 1 ≤ a.offsets.length := by
  have core : ∀ c1 : Prop, [Decidable c1] → ∀ r : Option (Except Code Unit), (if c1 then some (.error EINVAL)
      else if a.length ≠ 0 ∧ a.offsets.length < a.length + 1 then some (.error EINVAL) else r) = some (.ok ()) → a.length + 1 ≤ a.offsets.length := by
    intro c1 _ r hr
    by_cases h1 : c1
    · rw [if_pos h1] at hr; cases hr
    · rw [if_neg h1] at hr
      by_cases h2 : a.length ≠ 0 ∧ a.offsets.length < a.length + 1
      · rw [if_pos h2] at hr; cases hr
      · omega
  exact core _ _ h

theorem step_inv {c : WkbCall} {s : OWkb} (hi : Inv s) {r s1} (e : c.run mem junk s = some (r, s1)) : Inv s1 := by
  by_cases hc : c = .finish
  · subst hc; exact finish_inv hi e
  · have h1 : wkbRuns mem junk [c] s = some ([r], s1) := by rw [wkbRuns_cons e]; rfl
    exact (any_run [c] (by simpa using fun h => hc h.symm) hi h1).1

theorem run_inv : ∀ (cs : List WkbCall) {s : OWkb}, Inv s → ∀ {rs s'}, wkbRuns mem junk cs s = some (rs, s') → Inv s'
  | [], s, hi, rs, s', hw => by cases hw; exact hi
  | c :: cs, s, hi, rs, s', hw => by
    obtain ⟨r, s1, rs1, e, e', _⟩ := wkbRuns_inv hw
    exact run_inv cs (step_inv hi e) e'

theorem rel_begins {s : OWkb} (h : WkbBegins mem s) : Rel True s s.w := ⟨rfl, rfl, fun _ => ⟨rfl, fun _ => (begins_inv h).2.2⟩⟩

theorem enough_run (hm : ∀ k, mem k = true) : ∀ (cs : List WkbCall) (gs : List (Option Geom)), SayAll cs gs → ∀ {s : OWkb} {b : WkbW}, Inv s →
    Rel True s b → b.values.length + (elemBytes (gs.map wanted)).length ≤ 2147483647 → ∃ rs s', wkbRuns mem junk cs s = some (rs, s') ∧ AllFine rs
  | [], [], _, s, b, _, _, _ => ⟨[], s, rfl, fun r h => absurd h (by simp)⟩
  | c :: cs, g :: gs, h, s, b, hi, hr, hl => by
    obtain ⟨rc, s1, e1, st⟩ := says_step (mem := mem) (junk := junk) h.1 hi hr
    have hv : (elemBytes ((g :: gs).map wanted)).length = ((wanted g).getD []).length + (elemBytes (gs.map wanted)).length := by simp [elemBytes]
    rcases st.code with ⟨h0, _, b1, r1, ad⟩ | ⟨_, k, _, _, hk⟩ | ⟨_, _, h0⟩
    · obtain ⟨rs, s', e2, f2⟩ := enough_run hm cs gs h.2 st.inv r1 (by rw [ad.values, List.length_append]; omega)
      refine ⟨(rc, none) :: rs, s', by rw [wkbRuns_cons e1, e2]; rfl, ?_⟩
      intro r hr
      rcases List.mem_cons.1 hr with rfl | hr
      · exact h0
      · exact f2 r hr
    · rw [hm k] at hk; cases hk
    · omega
  | [], _ :: _, h, _, _, _, _, _ => h.elim
  | _ :: _, [], h, _, _, _, _, _ => h.elim

theorem wouldBe_canon {b : WkbW} {els : List (Option (List Byte))} (h : b.Has els) : wouldBe b = canonArray els := by
  unfold wouldBe canonArray
  rw [h.validity, h.offsets, h.values, h.length, h.nulls]

/-- Elements written behind other data. -/
theorem elements_behind (pre : List Int) (v : List Byte) (els : List (Option (List Byte))) (a : BinArray)
    (ho : a.offsets = pre ++ starts v.length els ++ [((v ++ elemBytes els).length : Int)]) (hd : a.data = v ++ elemBytes els)
    {j : Nat} {e : Option (List Byte)} (he : els[j]? = some e) : ElementIs a (pre.length + j) (e.getD []) := by
  obtain ⟨lo, hi, h1, h2, h3, h4, h5⟩ := (canon_represents (some v :: els)).element (j + 1) e (by simpa using he)
  have hc : (canonArray (some v :: els)).offsets = 0 :: (starts v.length els ++ [((v ++ elemBytes els).length : Int)]) := by
    simp [canonArray, starts, elemBytes]
  have hcd : (canonArray (some v :: els)).data = v ++ elemBytes els := by simp [canonArray, elemBytes]
  rw [hc, List.getElem?_cons_succ] at h1 h2
  rw [hcd] at h4 h5
  refine ⟨lo, hi, ?_, ?_, h3, by rw [hd]; exact h4, by rw [hd]; exact h5⟩
  · rw [ho, List.append_assoc, List.getElem?_append_right (by omega), Nat.add_sub_cancel_left]; exact h1
  · rw [ho, List.append_assoc, List.getElem?_append_right (by omega), show pre.length + j + 1 - pre.length = j + 1 by omega]; exact h2

theorem building_not_zero (a : BinArray) : finishBuilding a ≠ some (.error 0) := by
  have core : ∀ c1 c2 c3 : Prop, [Decidable c1] → [Decidable c2] → [Decidable c3] → ∀ x y : Option Int, (if c1 then some (.error EINVAL)
      else if c2 then some (.error EINVAL) else if c3 then some (.ok ())
      else match x, y with
        | some first, some last => if first < 0 ∨ last < 0 ∨ (a.data.length : Int) < last then some (.error EINVAL) else some (.ok ())
        | _, _ => none : Option (Except Code Unit)) ≠ some (.error 0) := by
    intro c1 c2 c3 _ _ _ x y
    by_cases h1 : c1
    · rw [if_pos h1]; simp [EINVAL]
    rw [if_neg h1]
    by_cases h2 : c2
    · rw [if_pos h2]; simp [EINVAL]
    rw [if_neg h2]
    by_cases h3 : c3
    · rw [if_pos h3]; simp
    rw [if_neg h3]
    cases x with
    | none => simp
    | some x =>
      cases y with
      | none => simp
      | some y =>
        simp only []
        by_cases h : x < 0 ∨ y < 0 ∨ (a.data.length : Int) < y
        · rw [if_pos h]; simp [EINVAL]
        · rw [if_neg h]; simp
  exact core _ _ _ _ _

end Verif.WOom
