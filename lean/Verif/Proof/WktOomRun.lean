import Verif.Proof.WktOom
import Verif.Proof.WktNesting
/-!
# Histories of the WKT writer whose requests may be refused
-/
namespace Verif.TOom
open Verif Spec
open Verif.Oom (ENOMEM)
open Verif.WOom (growByFactor_ge feed_bind Out Keeps)

variable {print : Nat → Dbl → List Byte} {mem : Nat → Bool} {junk : Nat → Nat → Bool}

/-- Offsets, length and the start of the feature are not touched. -/
structure Same (s s' : OWkt) : Prop where
  offsets : s'.w.offsets = s.w.offsets
  length : s'.w.length = s.w.length
  start : s'.w.featStart = s.w.featStart
  options : SameOptions s.w s'.w

theorem Same.trans {a b c : OWkt} (h : Same a b) (h' : Same b c) : Same a c := ⟨h'.1.trans h.1, h'.2.trans h.2, h'.3.trans h.3, h'.4.1.trans h.4.1, h'.4.2.trans h.4.2, h'.4.3.trans h.4.3⟩

theorem Same.refl (s : OWkt) : Same s s := ⟨rfl, rfl, rfl, rfl, rfl, rfl⟩

theorem same_bind {α β : Type} {x : M OWkt α} {f : α → M OWkt β} (h : Keeps Same x) (hf : ∀ a, Keeps Same (f a)) : Keeps Same (x >>= f) :=
  WOom.Keeps.bind (R := Same) (fun _ _ _ h h' => h.trans h') h hf

/-- Nor are the bitmap, the number of nulls and whether the feature is one. -/
structure Plain (s s' : OWkt) : Prop where
  offsets : s'.w.offsets = s.w.offsets
  length : s'.w.length = s.w.length
  start : s'.w.featStart = s.w.featStart
  validity : s'.w.validity = s.w.validity
  nulls : s'.w.nullCount = s.w.nullCount
  isNull : s'.w.featIsNull = s.w.featIsNull
  options : SameOptions s.w s'.w

theorem Plain.same {s s' : OWkt} (h : Plain s s') : Same s s' := ⟨h.offsets, h.length, h.start, h.options⟩

theorem Plain.trans {a b c : OWkt} (h : Plain a b) (h' : Plain b c) : Plain a c :=
  ⟨h'.1.trans h.1, h'.2.trans h.2, h'.3.trans h.3, h'.4.trans h.4, h'.5.trans h.5, h'.6.trans h.6, h'.7.1.trans h.7.1, h'.7.2.trans h.7.2, h'.7.3.trans h.7.3⟩

theorem plain_bind {α β : Type} {x : M OWkt α} {f : α → M OWkt β} (h : Keeps Plain x) (hf : ∀ a, Keeps Plain (f a)) : Keeps Plain (x >>= f) :=
  WOom.Keeps.bind (R := Plain) (fun _ _ _ h h' => h.trans h') h hf

structure SameW (w w' : WktW) : Prop where
  offsets : w'.offsets = w.offsets
  length : w'.length = w.length
  start : w'.featStart = w.featStart
  validity : w'.validity = w.validity
  nulls : w'.nullCount = w.nullCount
  isNull : w'.featIsNull = w.featIsNull
  options : SameOptions w w'

theorem SameW.trans {a b c : WktW} (h : SameW a b) (h' : SameW b c) : SameW a c := ⟨h'.1.trans h.1, h'.2.trans h.2, h'.3.trans h.3, h'.4.trans h.4, h'.5.trans h.5, h'.6.trans h.6, h'.7.1.trans h.7.1, h'.7.2.trans h.7.2, h'.7.3.trans h.7.3⟩

theorem samew_bind {α β : Type} {x : M WktW α} {f : α → M WktW β} (h : Keeps SameW x) (hf : ∀ a, Keeps SameW (f a)) : Keeps SameW (x >>= f) :=
  WOom.Keeps.bind (R := SameW) (fun _ _ _ h h' => h.trans h') h hf

theorem plain_lift {α : Type} {f : M WktW α} (h : Keeps SameW f) : Keeps Plain (lift f) := by
  intro s
  have := h s.w
  unfold TOom.lift
  revert this
  cases f s.w with
  | ok a w => exact fun h => ⟨h.1, h.2, h.3, h.4, h.5, h.6, h.7⟩
  | err rc w => exact fun h => ⟨h.1, h.2, h.3, h.4, h.5, h.6, h.7⟩
  | ub => exact id

theorem samew_modify {f : WktW → WktW} (h : ∀ w, SameW w (f w)) : Keeps SameW (M.modify f) := fun w => h w

theorem samew_pure {α : Type} (a : α) : Keeps SameW (pure a : M WktW α) := fun _ => ⟨rfl, rfl, rfl, rfl, rfl, rfl, rfl, rfl, rfl⟩

theorem samew_entry (i : Nat) : Keeps SameW (levelEntry i : M WktW Unit) := by
  intro w
  unfold levelEntry
  split
  · exact ⟨rfl, rfl, rfl, rfl, rfl, rfl, rfl, rfl, rfl⟩
  · trivial

theorem plain_entry (i : Nat) : Keeps Plain (levelEntry i : M OWkt Unit) := by
  intro w
  unfold levelEntry
  split
  · exact ⟨rfl, rfl, rfl, rfl, rfl, rfl, rfl, rfl, rfl⟩
  · trivial

theorem samew_level : Keeps SameW wktCheckLevel := by
  intro w
  unfold wktCheckLevel
  split <;> exact ⟨rfl, rfl, rfl, rfl, rfl, rfl, rfl, rfl, rfl⟩

theorem samew_unsafe (bs : List Byte) : Keeps SameW (wktUnsafe bs) := by
  intro w
  unfold wktUnsafe
  split
  · exact ⟨rfl, rfl, rfl, rfl, rfl, rfl, rfl, rfl, rfl⟩
  · trivial

theorem samew_double (x : Dbl) : Keeps SameW (wktDouble print x) := by
  intro w
  unfold wktDouble
  split
  · exact ⟨rfl, rfl, rfl, rfl, rfl, rfl, rfl, rfl, rfl⟩
  · trivial

theorem samew_ordinates : ∀ xs : List Dbl, Keeps SameW (wktOrdinates print xs)
  | [] => samew_pure ()
  | _ :: xs => samew_bind (samew_unsafe _) fun _ => samew_bind (samew_double _) fun _ => samew_ordinates xs

theorem samew_coord : ∀ xs : List Dbl, Keeps SameW (wktCoord print xs)
  | [] => fun _ => trivial
  | _ :: xs => samew_bind (samew_double _) fun _ => samew_ordinates xs

theorem samew_outer (l : Nat) : Keeps SameW (wktOuter l) := by
  intro w
  unfold wktOuter
  split
  · exact samew_bind (samew_entry _) (fun _ => samew_pure _) w
  · exact ⟨rfl, rfl, rfl, rfl, rfl, rfl, rfl, rfl, rfl⟩

theorem samew_open (l gt : Nat) : Keeps SameW (wktOpen l gt) :=
  samew_bind (samew_entry _) fun _ => samew_bind (samew_modify fun _ => ⟨rfl, rfl, rfl, rfl, rfl, rfl, rfl, rfl, rfl⟩) fun _ => samew_modify fun _ => ⟨rfl, rfl, rfl, rfl, rfl, rfl, rfl, rfl, rfl⟩

theorem plain_pure {α : Type} (a : α) : Keeps Plain (pure a : M OWkt α) := fun _ => ⟨rfl, rfl, rfl, rfl, rfl, rfl, rfl, rfl, rfl⟩

theorem plain_fail {α : Type} (rc : Code) : Keeps Plain (M.fail rc : M OWkt α) := fun _ => ⟨rfl, rfl, rfl, rfl, rfl, rfl, rfl, rfl, rfl⟩

theorem plain_reserve (n : Nat) : Keeps Plain (reserve mem n) := by
  intro s
  unfold reserve
  by_cases h : s.w.values.length + n ≤ s.w.cap
  · rw [if_pos h]; exact ⟨rfl, rfl, rfl, rfl, rfl, rfl, rfl, rfl, rfl⟩
  · rw [if_neg h]
    cases mem s.asked <;> exact ⟨rfl, rfl, rfl, rfl, rfl, rfl, rfl, rfl, rfl⟩

theorem plain_write (bs : List Byte) : Keeps Plain (write mem bs) := plain_bind (plain_reserve _) fun _ => plain_lift (samew_unsafe _)

theorem plain_tag (gt d : Nat) : Keeps Plain (tag mem gt d) := by
  unfold tag dims
  split
  · exact plain_fail _
  · refine plain_bind (plain_write _) fun _ => plain_bind ?_ fun _ => plain_write _
    split
    · exact plain_pure _
    split
    · exact plain_write _
    split
    · exact plain_write _
    split
    · exact plain_write _
    · exact plain_fail _

theorem plain_before (l : Nat) {z : M OWkt Unit} (hz : Keeps Plain z) : Keeps Plain (before mem l z) := by
  refine plain_bind (plain_lift (samew_outer l)) fun n => ?_
  cases n with
  | none => exact hz
  | some n =>
    show Keeps Plain (if 0 < n then write mem (str ", ") else write mem (str "("))
    split <;> exact plain_write _

theorem plain_more (n : Nat) : ∀ cs : List (List Dbl), Keeps Plain (more print mem n cs)
  | [] => plain_pure ()
  | c :: cs => by
    intro s
    unfold more
    by_cases h : s.w.limitReached = true
    · rw [if_pos h]; exact ⟨rfl, rfl, rfl, rfl, rfl, rfl, rfl, rfl, rfl⟩
    · rw [if_neg h]
      exact plain_bind (plain_reserve _) (fun _ => plain_bind (plain_lift (samew_unsafe _)) fun _ => plain_bind (plain_lift (samew_coord c)) fun _ => plain_more n cs) s

theorem plain_get {β : Type} {f : OWkt → M OWkt β} (h : ∀ s, Keeps Plain (f s)) : Keeps Plain (M.get >>= f) := fun s => h s s

theorem same_bitsReserve (n : Nat) : Keeps Same (bitsReserve mem junk n) := by
  intro s
  unfold bitsReserve
  by_cases h : (s.sizeBits + n + 7) / 8 ≤ s.bitsCap
  · rw [if_pos h]; exact ⟨rfl, rfl, rfl, rfl, rfl, rfl⟩
  · rw [if_neg h]
    cases mem s.asked <;> exact ⟨rfl, rfl, rfl, rfl, rfl, rfl⟩

theorem same_bitsUnsafe (b : Bool) (n : Nat) : Keeps Same (bitsUnsafe b n) := by
  intro s
  unfold bitsUnsafe
  cases s.w.validity with
  | none => trivial
  | some l =>
    simp only []
    by_cases h : (s.sizeBits + n + 7) / 8 ≤ s.bitsCap
    · rw [if_pos h]; exact ⟨rfl, rfl, rfl, rfl, rfl, rfl⟩
    · rw [if_neg h]; trivial

theorem same_bitsAppend (b : Bool) : Keeps Same (bitsAppend mem junk b) :=
  same_bind (same_bitsReserve _) fun _ => same_bitsUnsafe _ _

theorem same_begin : Keeps Same (bitsBegin mem junk) := by
  intro s
  unfold bitsBegin
  by_cases h : s.w.validity.isNone = true
  · rw [if_pos h]
    by_cases h0 : s.w.length = 0
    · rw [if_pos h0]; trivial
    · rw [if_neg h0]
      have h1 := same_bitsReserve (mem := mem) (junk := junk) s.w.length s
      revert h1
      cases bitsReserve mem junk s.w.length s with
      | ok u s' =>
        intro h1
        have h2 := same_bitsUnsafe true (s.w.length - 1) s'
        revert h2
        simp only []
        cases bitsUnsafe true (s.w.length - 1) s' with
        | ok _ s'' => exact h1.trans
        | err _ s'' => exact h1.trans
        | ub => intro _; trivial
      | err rc s' => exact id
      | ub => exact id
  · rw [if_neg h]; exact ⟨rfl, rfl, rfl, rfl, rfl, rfl⟩

theorem same_bitsNull : Keeps Same (bitsNull mem junk) :=
  same_bind same_begin fun _ => same_bind (fun _ => ⟨rfl, rfl, rfl, rfl, rfl, rfl⟩) fun _ => same_bitsAppend _

theorem same_cut : Keeps Same cut := by
  intro s
  unfold cut
  split
  · split
    · trivial
    · exact ⟨rfl, rfl, rfl, rfl, rfl, rfl⟩
  · exact ⟨rfl, rfl, rfl, rfl, rfl, rfl⟩

theorem plain_handler (e : Event) (he : e ≠ .featStart) (hn : e ≠ .nullFeat) (hf : e ≠ .featEnd) : Keeps Plain (handler print mem junk e) := by
  cases e with
  | featStart => exact absurd rfl he
  | nullFeat => exact absurd rfl hn
  | featEnd => exact absurd rfl hf
  | geomStart gt d =>
    refine plain_bind (plain_lift (samew_modify fun _ => ⟨rfl, rfl, rfl, rfl, rfl, rfl, rfl, rfl, rfl⟩)) fun _ => plain_bind (plain_lift samew_level) fun l =>
      plain_bind (plain_before l (plain_pure ())) fun _ => plain_get fun s => plain_bind ?_ fun _ => plain_lift (samew_open _ _)
    split
    · exact plain_tag _ _
    · exact plain_pure _
  | ringStart =>
    exact plain_bind (plain_lift (samew_modify fun _ => ⟨rfl, rfl, rfl, rfl, rfl, rfl, rfl, rfl, rfl⟩)) fun _ => plain_bind (plain_lift samew_level) fun l =>
      plain_bind (plain_before l (plain_write _)) fun _ => plain_lift (samew_open _ _)
  | coords nv cs =>
    show Keeps Plain (coordsCb print mem nv cs)
    unfold coordsCb
    cases cs with
    | nil => exact plain_pure _
    | cons c rest =>
      refine plain_bind (plain_lift samew_level) fun l => plain_get fun s => plain_bind (plain_reserve _) fun _ => plain_bind (plain_entry _) fun _ =>
        plain_bind ?_ fun _ => plain_bind (plain_reserve _) fun _ => plain_bind (plain_lift (samew_coord _)) fun _ => plain_bind (plain_more _ _) fun _ =>
        plain_lift (samew_modify fun _ => ⟨rfl, rfl, rfl, rfl, rfl, rfl, rfl, rfl, rfl⟩)
      split
      · exact plain_lift (samew_unsafe _)
      split
      · exact plain_lift (samew_unsafe _)
      · exact plain_pure _
  | ringEnd =>
    refine plain_bind (plain_lift samew_level) fun l => plain_bind (plain_entry _) fun _ => plain_get fun s =>
      plain_bind (plain_lift (samew_modify fun _ => ⟨rfl, rfl, rfl, rfl, rfl, rfl, rfl, rfl, rfl⟩)) fun _ => ?_
    split <;> exact plain_write _
  | geomEnd =>
    refine plain_bind (plain_lift samew_level) fun l => plain_bind (plain_entry _) fun _ => plain_get fun s =>
      plain_bind (plain_lift (samew_modify fun _ => ⟨rfl, rfl, rfl, rfl, rfl, rfl, rfl, rfl, rfl⟩)) fun _ => ?_
    split
    · exact plain_write _
    split
    · exact plain_write _
    · exact plain_pure _

theorem same_handler (e : Event) (he : e ≠ .featStart) : Keeps Same (handler print mem junk e) := by
  by_cases hn : e = .nullFeat
  · subst hn
    exact fun _ => ⟨rfl, rfl, rfl, rfl, rfl, rfl⟩
  by_cases hf : e = .featEnd
  · subst hf
    intro s
    show Out (Same s) (featEnd mem junk s)
    unfold featEnd
    by_cases h : s.w.featIsNull = true
    · rw [if_pos h]; exact same_bitsNull s
    · rw [if_neg h]
      by_cases h2 : s.w.validity.isSome = true
      · rw [if_pos h2]; exact same_bitsAppend true s
      · rw [if_neg h2]; exact same_cut s
  · exact (plain_handler e he hn hf).mono fun _ _ h => h.same

/-- No null so far. -/
def NoNulls (s : OWkt) : Prop := s.w.validity = none ∧ s.w.nullCount = 0

theorem clean_start (s : OWkt) (h : NoNulls s) : Out (fun s' => NoNulls s' ∧ s'.w.featIsNull = false) (handler print mem junk .featStart s) := by
  show Out _ (featStart mem s)
  unfold featStart
  simp only []
  by_cases h1 : s.w.values.length > 2147483647
  · rw [if_pos h1]; exact ⟨h, rfl⟩
  · rw [if_neg h1]
    unfold offsetsAppend
    simp only []
    by_cases h2 : 4 * s.w.offsets.length + 4 ≤ s.offsetsCap
    · rw [if_pos h2]; exact ⟨h, rfl⟩
    · rw [if_neg h2]
      cases mem s.asked <;> exact ⟨h, rfl⟩

theorem clean_handler (e : Event) (hn : e ≠ .nullFeat) (s : OWkt) (h : NoNulls s ∧ s.w.featIsNull = false) :
    Out (fun s' => NoNulls s' ∧ s'.w.featIsNull = false) (handler print mem junk e s) := by
  by_cases he : e = .featStart
  · subst he; exact clean_start s h.1
  by_cases hf : e = .featEnd
  · subst hf
    show Out _ (featEnd mem junk s)
    unfold featEnd cut
    rw [if_neg (by rw [h.2]; simp), if_neg (by rw [h.1.1]; simp)]
    split
    · split
      · trivial
      · exact h
    · exact h
  · have hp := plain_handler (print := print) (mem := mem) (junk := junk) e he hn hf s
    revert hp
    cases handler print mem junk e s with
    | ok _ s' => exact fun p => ⟨⟨p.validity.trans h.1.1, p.nulls.trans h.1.2⟩, p.isNull.trans h.2⟩
    | err _ s' => exact fun p => ⟨⟨p.validity.trans h.1.1, p.nulls.trans h.1.2⟩, p.isNull.trans h.2⟩
    | ub => exact id

theorem clean_feed : ∀ (t : List Event), .nullFeat ∉ t → ∀ s : OWkt, NoNulls s ∧ s.w.featIsNull = false →
    Out (fun s' => NoNulls s' ∧ s'.w.featIsNull = false) (feed (handler print mem junk) t s)
  | [], _, s, h => h
  | e :: t, hn, s, h => by
    rw [feed_bind, M.bind_run]
    have h1 := clean_handler (print := print) (mem := mem) (junk := junk) e (fun h => hn (by rw [h]; exact List.mem_cons_self ..)) s h
    revert h1
    cases handler print mem junk e s with
    | ok _ s' => exact clean_feed t (fun h => hn (List.mem_cons_of_mem _ h)) s'
    | err _ s' => exact id
    | ub => exact id

theorem clean_visit {t : List Event} (hn : .nullFeat ∉ t) (s : OWkt) (h : NoNulls s) :
    Out NoNulls (visitByFeature (handler print mem junk) (feed (handler print mem junk) (.featStart :: t)) s) := by
  have h1 : Out (fun s' => NoNulls s' ∧ s'.w.featIsNull = false) (feed (handler print mem junk) (.featStart :: t) s) := by
    rw [feed_bind, M.bind_run]
    have h1 := clean_start (print := print) (mem := mem) (junk := junk) s h
    revert h1
    cases handler print mem junk .featStart s with
    | ok _ s' => exact clean_feed t hn s'
    | err _ s' => exact id
    | ub => exact id
  unfold visitByFeature
  revert h1
  cases feed (handler print mem junk) (.featStart :: t) s with
  | ok _ s' => exact fun h => h.1
  | err rc s' =>
    intro h1
    simp only []
    split
    · have h2 := clean_handler (print := print) (mem := mem) (junk := junk) .featEnd (by simp) s' h1
      revert h2
      cases handler print mem junk .featEnd s' with
      | ok _ s'' => exact fun h => h.1
      | err _ s'' => exact fun h => h.1
      | ub => exact id
    · exact h1.1
  | ub => exact id

/-- There are no more offsets than elements, and the options are what they were. -/
structure Short (s s' : OWkt) : Prop where
  few : s.w.offsets.length ≤ s.w.length → s'.w.offsets.length ≤ s'.w.length
  options : SameOptions s.w s'.w

theorem Short.refl (s : OWkt) : Short s s := ⟨id, rfl, rfl, rfl⟩

theorem Short.trans {a b c : OWkt} (h : Short a b) (h' : Short b c) : Short a c := ⟨fun x => h'.1 (h.1 x), h'.2.1.trans h.2.1, h'.2.2.trans h.2.2, h'.2.3.trans h.2.3⟩

theorem Same.short {a b : OWkt} (h : Same a b) : Short a b := ⟨fun x => by rw [h.1, h.2]; exact x, h.4⟩

theorem short_handler (e : Event) : Keeps Short (handler print mem junk e) := by
  by_cases he : e = .featStart
  · subst he
    intro s
    show Out (Short s) (featStart mem s)
    unfold featStart
    simp only []
    by_cases h : s.w.values.length > 2147483647
    · rw [if_pos h]
      exact ⟨fun x => Nat.le_succ_of_le x, rfl, rfl, rfl⟩
    · rw [if_neg h]
      unfold offsetsAppend
      simp only []
      split
      · exact ⟨fun x => by simpa using x, rfl, rfl, rfl⟩
      · split
        · exact ⟨fun x => by simpa using x, rfl, rfl, rfl⟩
        · exact ⟨fun x => by simp, rfl, rfl, rfl⟩
  · exact (same_handler e he).mono fun _ _ h => h.short

theorem short_feed : ∀ (t : List Event), Keeps Short (feed (handler print mem junk) t)
  | [] => fun s => Short.refl s
  | e :: t => by
    rw [feed_bind]
    exact WOom.Keeps.bind (R := Short) (fun _ _ _ h h' => h.trans h') (short_handler e) fun _ => short_feed t

theorem short_visit (t : List Event) : Keeps Short (visitByFeature (handler print mem junk) (feed (handler print mem junk) t)) := by
  intro s
  have h1 := short_feed (print := print) (mem := mem) (junk := junk) t s
  unfold visitByFeature
  revert h1
  cases feed (handler print mem junk) t s with
  | ok _ s' => exact id
  | err rc s' =>
    intro h1
    simp only []
    split
    · have h2 := short_handler (print := print) (mem := mem) (junk := junk) .featEnd s'
      revert h2
      cases handler print mem junk .featEnd s' with
      | ok _ s'' => exact fun h2 => h1.trans h2
      | err _ s'' => exact fun h2 => h1.trans h2
      | ub => exact id
    · exact h1
  | ub => exact id

theorem rel_self (s : OWkt) : Rel False s s.w := ⟨rfl, rfl, fun h => h.elim⟩

/-- An element fits a feature. -/
def Fits (max : Int) (txt : Geom → List Byte) (n : Bool) : Option Geom → Option (List Byte) → Prop
  | none, none => True
  | some g, some e => MayHold max n (txt g) e
  | _, _ => False

theorem elements_cons {max : Int} {txt : Geom → List Byte} {n : Bool} {o : Option Geom} {e : Option (List Byte)} {gs es}
    (h1 : Fits max txt n o e) (h2 : ElementsFor max txt (n || o.isNone) gs es) : ElementsFor max txt n (o :: gs) (e :: es) := by
  cases o with
  | none =>
    cases e with
    | none => simpa [ElementsFor] using h2
    | some _ => exact h1.elim
  | some g =>
    cases e with
    | none => exact h1.elim
    | some _ => exact ⟨h1, by simpa using h2⟩

theorem fits_length {max : Int} {txt : Geom → List Byte} {n : Bool} {o : Option Geom} {e : Option (List Byte)} (h : Fits max txt n o e) :
    (e.getD []).length ≤ ((o.map txt).getD []).length := by
  cases o with
  | none => cases e with
    | none => exact Nat.le_refl _
    | some _ => exact h.elim
  | some g => cases e with
    | none => exact h.elim
    | some e =>
      simp only [Option.map_some, Option.getD_some]
      have h' : MayHold max n (txt g) e := h
      unfold MayHold at h'
      split at h'
      · rw [h']; exact Nat.le_refl _
      · split at h'
        · exact h'.1.length_le
        · rw [h', List.length_take]; exact Nat.min_le_right _ _

def addBits (e : Option (List Byte)) (v : Option (List Bool)) (n : Nat) : Option (Option (List Bool)) :=
  match e with
  | none => (bitsAppendNull v n).map some
  | some _ => some (bitsAppendValid v)

/-- What adding an element does to a writer that gets all its memory. -/
structure Adds (e : Option (List Byte)) (b b' : WktW) : Prop where
  values : b'.values = b.values ++ e.getD []
  offsets : b'.offsets = b.offsets ++ [(b.values.length : Int)]
  length : b'.length = b.length + 1
  nulls : b'.nullCount = b.nullCount + if e.isNone then 1 else 0
  validity : some b'.validity = addBits e b.validity (b.length + 1)
  options : SameOptions b b'

/-- The text of a geometry as the writer writes it. -/
def textOf (print : Nat → Dbl → List Byte) (b : WktW) : Geom → List Byte := wktText (print b.precision) b.flat

/-- What a call does. -/
structure Step (print : Nat → Dbl → List Byte) (mem : Nat → Bool) (ex : Prop) (o : Option Geom) (s : OWkt) (b : WktW) (rc : Code) (s' : OWkt) : Prop where
  inv : Inv s'
  asked : s.asked ≤ s'.asked
  short : Short s s'
  code : (rc = 0 ∧ Granted mem s s' ∧ ∃ b' e, Rel ex s' b' ∧ Adds e b b' ∧ Fits b.maxSize (textOf print b) b.validity.isSome o e) ∨
    (rc = ENOMEM ∧ WktRefused mem s s') ∨ (rc = EOVERFLOW ∧ Granted mem s s' ∧ 2147483647 < b.values.length)

theorem over_visit {b : WktW} (h : 2147483647 < b.values.length) (t : List Event) :
    ∃ b', visitByFeature (wktHandler print) (feed (wktHandler print) (.featStart :: t)) b = .err EOVERFLOW b' := by
  refine ⟨{ b with level := -1, length := b.length + 1, featIsNull := false, featStart := b.values.length }, ?_⟩
  have h1 : feed (wktHandler print) (.featStart :: t) b =
      .err EOVERFLOW { b with level := -1, length := b.length + 1, featIsNull := false, featStart := b.values.length } := by
    rw [feed_bind, M.bind_run]
    have : wktHandler print .featStart b = .err EOVERFLOW { b with level := -1, length := b.length + 1, featIsNull := false, featStart := b.values.length } := by
      show wktFeatStart b = _
      unfold wktFeatStart
      simp only []
      rw [if_pos h]
    rw [this]
  unfold visitByFeature
  rw [h1]
  simp only []
  rw [if_neg (by decide)]

theorem says_step (hp : ∀ n x, (print n x).length ≤ 40) {c : WktCall} {o : Option Geom} (h : c.Says o) {ex : Prop} {s : OWkt} {b : WktW} (hi : Inv s)
    (hr : Rel ex s b) : ∃ rc s', c.run print mem junk s = some ((rc, none), s') ∧ Step print mem ex o s b rc s' := by
  obtain ⟨t, rfl, hy⟩ : ∃ t, c = .visit t ∧
      ((∃ b' e, visitByFeature (wktHandler print) (feed (wktHandler print) t) b = .ok () b' ∧ Adds e b b' ∧ Fits b.maxSize (textOf print b) b.validity.isSome o e) ∨
       (2147483647 < b.values.length ∧ ∃ b', visitByFeature (wktHandler print) (feed (wktHandler print) t) b = .err EOVERFLOW b')) := by
    cases h with
    | @feature g t ht hw hty hh =>
      refine ⟨t, rfl, ?_⟩
      by_cases hl : b.values.length ≤ 2147483647
      · obtain ⟨b', e, h1, h2⟩ := feature_run hp ht hw hty hh b hl
        refine Or.inl ⟨b', some e, h1, ⟨h2.values, h2.offsets, h2.length, h2.nulls, by rw [h2.validity]; rfl, h2.options⟩, ?_⟩
        show MayHold b.maxSize b.validity.isSome (textOf print b g) e
        unfold MayHold
        by_cases hm : b.maxSize < 0
        · rw [if_pos hm]
          exact h2.stop.resolve_right (by omega)
        · rw [if_neg hm]
          cases hv : b.validity with
          | none =>
            simp only [Option.isSome_none, Bool.false_eq_true, if_false]
            exact h2.cut hv (by omega)
          | some l =>
            simp only [Option.isSome_some, if_true]
            exact ⟨h2.pre, h2.stop.imp id fun h => h.2⟩
      · obtain ⟨t', _, rfl⟩ := ht
        exact Or.inr ⟨by omega, over_visit (by omega) _⟩
    | null =>
      refine ⟨_, rfl, ?_⟩
      by_cases hl : b.values.length ≤ 2147483647
      · obtain ⟨b', l, h1, h2, h3, h4, h5, h6, h7, h8⟩ := wktNull_run print b hl
        refine Or.inl ⟨b', none, ?_, ⟨by simpa using h4, h5, h6, by simpa using h7, ?_, h8⟩, trivial⟩
        · unfold visitByFeature
          rw [h1]
        · show some b'.validity = (bitsAppendNull b.validity (b.length + 1)).map some
          rw [h2, h3]; rfl
      · exact Or.inr ⟨by omega, over_visit (by omega) _⟩
  have hg := sim_visit (print := print) (mem := mem) (junk := junk) t ex s b hi hr
  have hs := short_visit (print := print) (mem := mem) (junk := junk) t s
  unfold WktCall.run
  simp only []
  revert hg hs
  cases visitByFeature (handler print mem junk) (feed (handler print mem junk) t) s with
  | ok a s' =>
    rintro ⟨b', h1, h2, h3, h4⟩ hs
    refine ⟨0, s', rfl, h2, h4.1, hs, Or.inl ⟨rfl, h4, ?_⟩⟩
    rcases hy with ⟨b2, e, h, ha, hf⟩ | ⟨_, b2, h⟩
    · rw [h] at h1
      have hb : b2 = b' := by cases h1; rfl
      subst hb
      exact ⟨b2, e, h3, ha, hf⟩
    · rw [h] at h1; cases h1
  | err rc s' =>
    rintro ⟨h1, h2, h3⟩ hs
    refine ⟨rc, s', rfl, h1, h2, hs, ?_⟩
    rcases h3 with h3 | ⟨g, b', h, _⟩
    · exact Or.inr (Or.inl h3)
    · rcases hy with ⟨b2, e, h', _⟩ | ⟨hl, b2, h'⟩
      · rw [h'] at h; cases h
      · rw [h'] at h; cases h; exact Or.inr (Or.inr ⟨rfl, g, hl⟩)
  | ub =>
    intro hg _
    have hg' : visitByFeature (wktHandler print) (feed (wktHandler print) t) b = .ub := hg
    rcases hy with ⟨b2, e, h, _⟩ | ⟨_, b2, h⟩ <;> rw [h] at hg' <;> cases hg'

theorem wktRuns_cons {c : WktCall} {cs s r s1} (h : c.run print mem junk s = some (r, s1)) :
    wktRuns print mem junk (c :: cs) s = (wktRuns print mem junk cs s1).map fun p => (r :: p.1, p.2) := by
  rw [wktRuns.eq_2, h]

theorem wktRuns_cons_none {c : WktCall} {cs s} (h : c.run print mem junk s = none) : wktRuns print mem junk (c :: cs) s = none := by
  rw [wktRuns.eq_2, h]

theorem wktRuns_inv {c : WktCall} {cs s rs s'} (h : wktRuns print mem junk (c :: cs) s = some (rs, s')) :
    ∃ r s1 rs1, c.run print mem junk s = some (r, s1) ∧ wktRuns print mem junk cs s1 = some (rs1, s') ∧ rs = r :: rs1 := by
  cases e : c.run print mem junk s with
  | none => rw [wktRuns_cons_none e] at h; cases h
  | some p =>
    rw [wktRuns_cons (r := p.1) (s1 := p.2) e] at h
    cases e2 : wktRuns print mem junk cs p.2 with
    | none => rw [e2] at h; cases h
    | some q => rw [e2] at h; cases h; exact ⟨p.1, p.2, q.1, rfl, e2, rfl⟩

theorem clean_run : ∀ (cs : List WktCall), (∀ c ∈ cs, ∃ t, c = .visit (.featStart :: t) ∧ .nullFeat ∉ t) → ∀ {s : OWkt}, NoNulls s →
    ∀ {rs s'}, wktRuns print mem junk cs s = some (rs, s') → NoNulls s'
  | [], _, s, h, rs, s', hw => by cases hw; exact h
  | c :: cs, hc, s, h, rs, s', hw => by
    obtain ⟨t, rfl, hn⟩ := hc c (List.mem_cons_self ..)
    have h1 := clean_visit (print := print) (mem := mem) (junk := junk) hn s h
    obtain ⟨r, s1, rs1, e, e', _⟩ := wktRuns_inv hw
    refine clean_run cs (fun c h => hc c (List.mem_cons_of_mem _ h)) ?_ e'
    unfold WktCall.run at e
    revert h1 e
    simp only []
    cases visitByFeature (handler print mem junk) (feed (handler print mem junk) (.featStart :: t)) s with
    | ok _ s2 => intro h1 e; cases e; exact h1
    | err _ s2 => intro h1 e; cases e; exact h1
    | ub => intro h1 e; cases e

theorem adds_isSome {e : Option (List Byte)} {b b' : WktW} (h : Adds e b b') : b'.validity.isSome = (b.validity.isSome || e.isNone) := by
  have hv := h.validity
  cases e with
  | none =>
    have hv' : some b'.validity = (bitsAppendNull b.validity (b.length + 1)).map some := hv
    cases hb : bitsAppendNull b.validity (b.length + 1) with
    | none => rw [hb] at hv'; cases hv'
    | some l => rw [hb] at hv'; cases hq : b'.validity with
      | none => rw [hq] at hv'; cases hv'
      | some _ => simp
  | some _ =>
    have hv' : b'.validity = bitsAppendValid b.validity := Option.some.inj hv
    rw [hv']
    cases b.validity <;> rfl

theorem fits_isNone {max : Int} {txt : Geom → List Byte} {n : Bool} {o : Option Geom} {e : Option (List Byte)} (h : Fits max txt n o e) : e.isNone = o.isNone := by
  cases o <;> cases e <;> first | rfl | exact h.elim

/-- Calls that all succeed. -/
theorem fine_run (hp : ∀ n x, (print n x).length ≤ 40) : ∀ (cs : List WktCall) (gs : List (Option Geom)), WktSayAll cs gs → ∀ {ex : Prop} {s : OWkt} {b : WktW},
    Inv s → Rel ex s b → ∀ {rs s'}, wktRuns print mem junk cs s = some (rs, s') → AllFine rs →
    ∃ b' es, Rel ex s' b' ∧ Inv s' ∧ Granted mem s s' ∧ Short s s' ∧ ElementsFor b.maxSize (textOf print b) b.validity.isSome gs es ∧
      es.length = gs.length ∧ b'.values = b.values ++ elemBytes es ∧ b'.length = b.length + gs.length ∧
      b'.offsets = b.offsets ++ starts b.values.length es ∧ ∀ els, b.core.Has els → b'.core.Has (els ++ es)
  | [], [], _, ex, s, b, hi, hr, rs, s', hw, _ => by
    cases hw
    exact ⟨b, [], hr, hi, Granted.refl s, Short.refl s, trivial, rfl, by simp [elemBytes], rfl, by simp [starts], fun els h => by simpa using h⟩
  | c :: cs, g :: gs, h, ex, s, b, hi, hr, rs, s', hw, hf => by
    obtain ⟨rc, s1, e1, st⟩ := says_step (mem := mem) (junk := junk) hp h.1 hi hr
    obtain ⟨r, s1', rs1, e1', e2, rfl⟩ := wktRuns_inv hw
    rw [e1] at e1'
    cases e1'
    have h0 : rc = 0 := hf (rc, none) (by simp)
    have hcode : Granted mem s s1 ∧ ∃ b' e, Rel ex s1 b' ∧ Adds e b b' ∧ Fits b.maxSize (textOf print b) b.validity.isSome g e := by
      rcases st.code with h | ⟨h, _⟩ | ⟨h, _⟩
      · exact h.2
      · rw [h0] at h; exact absurd h (by decide)
      · rw [h0] at h; exact absurd h (by decide)
    obtain ⟨hg1, b1, e, hr1, ad, ft⟩ := hcode
    obtain ⟨b2, es, r2, i2, g2, sh2, el2, n2, v2, l2, o2, p2⟩ := fine_run hp cs gs h.2 st.inv hr1 e2 (fun r hr => hf r (by simp [hr]))
    have ht : textOf print b1 = textOf print b := by unfold textOf; rw [ad.options.1, ad.options.2]
    rw [ht, ad.options.3, adds_isSome ad, fits_isNone ft] at el2
    refine ⟨b2, e :: es, r2, i2, hg1.trans g2, st.short.trans sh2, elements_cons ft el2, by simp [n2], ?_, by rw [l2, ad.length, List.length_cons]; omega, ?_, ?_⟩
    · rw [v2, ad.values, List.append_assoc]; rfl
    · rw [o2, ad.offsets, ad.values, List.length_append, List.append_assoc]; rfl
    · intro els he
      have := p2 (els ++ [e]) ?_
      · rw [List.append_assoc] at this; exact this
      · cases e with
        | none =>
          have hval : some b1.validity = (bitsAppendNull b.validity (b.length + 1)).map some := ad.validity
          have hlen : els.length = b.length := he.length.symm
          exact has_null he (by rw [hlen]; exact hval) ad.offsets (by show b1.values = b.values; simpa using ad.values) ad.length ad.nulls
        | some bs => exact has_some he (Option.some.inj ad.validity) ad.offsets ad.values ad.length ad.nulls
  | [], _ :: _, h, _, _, _, _, _, _, _, _, _ => h.elim
  | _ :: _, [], h, _, _, _, _, _, _, _, _, _ => h.elim

theorem inv_init (p f m) (raw : WktW) (k : Nat) : Inv (init p f m raw k) := ⟨fun l h => (by cases h), fun _ => rfl⟩

theorem inv_moved (s : OWkt) (k : Nat) : Inv { moved s with asked := k } := ⟨fun l h => (by cases h), fun _ => rfl⟩

/-- How the last part of `finish` can go. -/
theorem finishArray_cases (s : OWkt) (ho : 0 < s.w.offsets.length) :
    (∃ s', finishArray mem s = some ((ENOMEM, none), s') ∧ s'.w = s.w ∧ s' = { s with asked := s.asked + 1 } ∧ WktRefused mem s s') ∨
    (finishArray mem s = none ∧ mem s.asked = true ∧ mem (s.asked + 1) = false) ∨
    (∃ rc k, finishArray mem s = some ((rc, some (built s)), { moved s with asked := k }) ∧
      ((rc = ENOMEM ∧ WktRefused mem s { moved s with asked := k }) ∨
       (Granted mem s { moved s with asked := k } ∧ ((finishBuilding (built s) = some (.ok ()) ∧ rc = 0) ∨ finishBuilding (built s) = some (.error rc))))) := by
  unfold finishArray arrayInit
  cases h1 : mem s.asked with
  | false => exact Or.inl ⟨_, rfl, rfl, rfl, s.asked, Nat.le_refl _, Nat.lt_succ_self _, h1⟩
  | true =>
    cases h2 : mem (s.asked + 1) with
    | false => exact Or.inr (Or.inl ⟨rfl, rfl, rfl⟩)
    | true =>
      refine Or.inr (Or.inr ?_)
      simp only [if_true]
      by_cases h3 : s.w.cap = 0 ∧ mem (s.asked + 2) = false
      · rw [if_pos h3]
        exact ⟨_, _, rfl, Or.inl ⟨rfl, s.asked + 2, by omega, Nat.lt_succ_self _, h3.2⟩⟩
      · rw [if_neg h3]
        have hgr : Granted mem s { moved s with asked := if s.w.cap = 0 then s.asked + 2 + 1 else s.asked + 2 } := by
          refine ⟨?_, fun k k1 k2 => ?_⟩
          · show s.asked ≤ if s.w.cap = 0 then s.asked + 2 + 1 else s.asked + 2
            split <;> omega
          · have k2' : k < if s.w.cap = 0 then s.asked + 2 + 1 else s.asked + 2 := k2
            by_cases e0 : k = s.asked
            · rw [e0]; exact h1
            · by_cases e1 : k = s.asked + 1
              · rw [e1]; exact h2
              · by_cases hc : s.w.cap = 0
                · rw [if_pos hc] at k2'
                  have e2 : k = s.asked + 2 := by omega
                  rw [e2]
                  cases hm : mem (s.asked + 2) with
                  | true => rfl
                  | false => exact absurd ⟨hc, hm⟩ h3
                · rw [if_neg hc] at k2'
                  omega
        have hb : built { s with asked := s.asked + 2 } = built s := rfl
        simp only [hb]
        cases hf : finishBuilding (built s) with
        | none => exact absurd hf (WOom.building_safe _ ho)
        | some r =>
          cases r with
          | error rc => exact ⟨rc, _, rfl, Or.inr ⟨hgr, Or.inr rfl⟩⟩
          | ok u => exact ⟨0, _, rfl, Or.inr ⟨hgr, Or.inl ⟨rfl, rfl⟩⟩⟩

/-- The array `finish` makes. -/
def wouldBe (w : WktW) : BinArray := ⟨w.length, w.nullCount, w.validity, w.offsets ++ [(w.values.length : Int)], w.values⟩

/-- All the ways `finish` can go. -/
theorem finish_cases (s : OWkt) (hi : Inv s) :
    (2147483647 < s.w.values.length ∧ finish mem s = some ((EOVERFLOW, none), s)) ∨
    (s.w.values.length ≤ 2147483647 ∧
      ((∃ s', finish mem s = some ((ENOMEM, none), s') ∧ Inv s' ∧ WktRefused mem s s') ∨
       (finish mem s = none ∧ ∃ k, s.asked ≤ k ∧ k ≤ s.asked + 1 ∧ mem k = true ∧ mem (k + 1) = false) ∨
       (∃ rc s1 k, finish mem s = some ((rc, some (wouldBe s.w)), { moved s1 with asked := k }) ∧
         ((rc = ENOMEM ∧ WktRefused mem s { moved s1 with asked := k }) ∨
          (Granted mem s { moved s1 with asked := k } ∧ ((finishBuilding (wouldBe s.w) = some (.ok ()) ∧ rc = 0) ∨ finishBuilding (wouldBe s.w) = some (.error rc))))))) := by
  by_cases hl : 2147483647 < s.w.values.length
  · refine Or.inl ⟨hl, ?_⟩
    unfold finish
    rw [if_pos hl]
  · refine Or.inr ⟨by omega, ?_⟩
    unfold finish
    rw [if_neg hl]
    have key : ∀ s1 : OWkt, s1.w = { s.w with offsets := s.w.offsets ++ [(s.w.values.length : Int)] } → Inv s1 → Granted mem s s1 → s1.asked ≤ s.asked + 1 →
        ((∃ s', finishArray mem s1 = some ((ENOMEM, none), s') ∧ Inv s' ∧ WktRefused mem s s') ∨
         (finishArray mem s1 = none ∧ ∃ k, s.asked ≤ k ∧ k ≤ s.asked + 1 ∧ mem k = true ∧ mem (k + 1) = false) ∨
         (∃ rc s2 k, finishArray mem s1 = some ((rc, some (wouldBe s.w)), { moved s2 with asked := k }) ∧
           ((rc = ENOMEM ∧ WktRefused mem s { moved s2 with asked := k }) ∨
            (Granted mem s { moved s2 with asked := k } ∧ ((finishBuilding (wouldBe s.w) = some (.ok ()) ∧ rc = 0) ∨ finishBuilding (wouldBe s.w) = some (.error rc)))))) := by
      intro s1 hw hi1 hg ha
      have hb : built s1 = wouldBe s.w := by unfold built; rw [hw]; rfl
      have href : ∀ s', WktRefused mem s1 s' → WktRefused mem s s' := fun s' ⟨k, k1, k2, k3⟩ => ⟨k, Nat.le_trans hg.1 k1, k2, k3⟩
      rcases finishArray_cases (mem := mem) s1 (by rw [hw]; simp) with ⟨s', e, e1, e2, r⟩ | ⟨e, m1, m2⟩ | ⟨rc, k, e, h⟩
      · refine Or.inl ⟨s', e, ?_, href _ r⟩
        rw [e2]
        exact ⟨hi1.bits, hi1.noBits⟩
      · exact Or.inr (Or.inl ⟨e, s1.asked, hg.1, ha, m1, m2⟩)
      · rw [hb] at e h
        refine Or.inr (Or.inr ⟨rc, s1, k, e, ?_⟩)
        rcases h with ⟨h1, h2⟩ | ⟨h1, h2⟩
        · exact Or.inl ⟨h1, href _ h2⟩
        · exact Or.inr ⟨hg.trans h1, h2⟩
    unfold offsetsAppend
    by_cases h : 4 * s.w.offsets.length + 4 ≤ s.offsetsCap
    · rw [if_pos h]
      exact key _ rfl ⟨hi.bits, hi.noBits⟩ (Granted.same rfl) (Nat.le_succ _)
    · rw [if_neg h]
      cases hm : mem s.asked with
      | true =>
        exact key { s with asked := s.asked + 1, offsetsCap := growByFactor s.offsetsCap (4 * s.w.offsets.length + 4), w := { s.w with offsets := s.w.offsets ++ [(s.w.values.length : Int)] } }
          rfl ⟨hi.bits, hi.noBits⟩ (Granted.one rfl hm) (Nat.le_refl _)
      | false =>
        exact Or.inl ⟨_, rfl, ⟨hi.bits, hi.noBits⟩, s.asked, Nat.le_refl _, Nat.lt_succ_self _, hm⟩

/-- A writer that holds nothing. -/
theorem begins_inv {s : OWkt} (h : WktBegins mem s) : Inv s ∧ s.w.core.Fresh ∧ s.sizeBits = 0 := by
  rcases h with ⟨p, f, m, raw, k, rfl⟩ | ⟨s1, rc, a, e⟩
  · exact ⟨inv_init p f m raw k, ⟨rfl, rfl, rfl, rfl, rfl⟩, rfl⟩
  · have hm : ∃ s2 k, s = { moved s2 with asked := k } := by
      have fa : ∀ s2, finishArray mem s2 = some ((rc, some a), s) → ∃ s3 k, s = { moved s3 with asked := k } := by
        intro s2 e2
        unfold finishArray at e2
        cases ha : arrayInit mem s2 with
        | ub => rw [ha] at e2; cases e2
        | err rc' s3 => rw [ha] at e2; cases e2
        | ok u s3 =>
          rw [ha] at e2
          simp only [] at e2
          split at e2
          · cases e2; exact ⟨_, _, rfl⟩
          · split at e2
            · cases e2
            · cases e2; exact ⟨_, _, rfl⟩
            · cases e2; exact ⟨_, _, rfl⟩
      unfold finish at e
      split at e
      · cases e
      · split at e
        · cases e
        · cases e
        · exact fa _ e
    obtain ⟨s2, k, rfl⟩ := hm
    exact ⟨inv_moved s2 k, ⟨rfl, rfl, rfl, rfl, rfl⟩, rfl⟩

theorem finish_inv {s : OWkt} (hi : Inv s) {r s'} (h : finish mem s = some (r, s')) : Inv s' := by
  rcases finish_cases (mem := mem) s hi with ⟨_, e⟩ | ⟨_, ⟨s1, e, i, _⟩ | ⟨e, _⟩ | ⟨rc, s1, k, e, _⟩⟩
  · rw [e] at h; cases h; exact hi
  · rw [e] at h; cases h; exact i
  · rw [e] at h; cases h
  · rw [e] at h; cases h; exact inv_moved s1 k

/-- Any visit: sizes and capacities still agree, and there are no more offsets than elements. -/
theorem any_step {t : List Event} {s : OWkt} (hi : Inv s) {r s1} (e : (WktCall.visit t).run print mem junk s = some (r, s1)) : Inv s1 ∧ Short s s1 := by
  have hg := sim_visit (print := print) (mem := mem) (junk := junk) t False s s.w hi (rel_self s)
  have hs := short_visit (print := print) (mem := mem) (junk := junk) t s
  unfold WktCall.run at e
  simp only [] at e
  revert hg hs e
  cases visitByFeature (handler print mem junk) (feed (handler print mem junk) t) s with
  | ok a s2 => rintro e ⟨b', _, h2, _⟩ hs; cases e; exact ⟨h2, hs⟩
  | err rc s2 => intro e hg hs; cases e; exact ⟨hg.1, hs⟩
  | ub => intro e; cases e

theorem any_run : ∀ (cs : List WktCall), .finish ∉ cs → ∀ {s : OWkt}, Inv s → ∀ {rs s'}, wktRuns print mem junk cs s = some (rs, s') → Inv s' ∧ Short s s'
  | [], _, s, hi, rs, s', hw => by cases hw; exact ⟨hi, Short.refl s⟩
  | .finish :: _, hn, _, _, _, _, _ => absurd (List.mem_cons_self ..) hn
  | .visit t :: cs, hn, s, hi, rs, s', hw => by
    obtain ⟨r, s1, rs1, e, e2, rfl⟩ := wktRuns_inv hw
    obtain ⟨i1, sh1⟩ := any_step hi e
    obtain ⟨i2, sh2⟩ := any_run cs (fun h => hn (List.mem_cons_of_mem _ h)) i1 e2
    exact ⟨i2, sh1.trans sh2⟩

theorem run_inv : ∀ (cs : List WktCall) {s : OWkt}, Inv s → ∀ {rs s'}, wktRuns print mem junk cs s = some (rs, s') → Inv s'
  | [], s, hi, rs, s', hw => by cases hw; exact hi
  | c :: cs, s, hi, rs, s', hw => by
    obtain ⟨r, s1, rs1, e, e', _⟩ := wktRuns_inv hw
    refine run_inv cs ?_ e'
    cases c with
    | visit t => exact (any_step hi e).1
    | finish => exact finish_inv hi e

/-! ## Safety -/

theorem start_sane (s : WktW) : Sound (wktHandler print .featStart s) := by
  simp only [wktHandler, wktFeatStart]
  split
  · exact ⟨by simp, Int.natCast_nonneg _⟩
  · exact ⟨by simp, Int.natCast_nonneg _⟩

theorem feed_sound (hp : ∀ n x, (print n x).length ≤ 40) : ∀ (t : List Event), (∀ e ∈ t, EvenCoords e) → ∀ {s : WktW}, s.Sane → Sound (feed (wktHandler print) t s)
  | [], _, s, hs => hs
  | e :: t, he, s, hs => by
    rw [feed_bind]
    exact post_bind (handler_sound hp e (he e (by simp)) hs) fun _ s1 h1 => feed_sound hp t (fun e' h' => he e' (by simp [h'])) h1

theorem visit_defined (hp : ∀ n x, (print n x).length ≤ 40) {t : List Event} (ht : ∀ e ∈ t, EvenCoords e) (s : WktW) :
    visitByFeature (wktHandler print) (feed (wktHandler print) (.featStart :: t)) s ≠ .ub := by
  have h1 : Sound (feed (wktHandler print) (.featStart :: t) s) := by
    rw [feed_bind]
    exact post_bind (start_sane s) fun _ s1 h1 => feed_sound hp t ht h1
  unfold visitByFeature
  revert h1
  cases feed (wktHandler print) (.featStart :: t) s with
  | ok _ s' => intro _; simp
  | err rc s' =>
    intro h1
    simp only []
    split
    · have h2 := handler_sound hp .featEnd (by intro _ _ h; cases h) h1
      intro h3
      rw [h3] at h2
      exact h2
    · simp
  | ub => intro h1; exact h1.elim

theorem proper_step (hp : ∀ n x, (print n x).length ≤ 40) {t : List Event} (h : (WktCall.visit t).Proper) {s : OWkt} (hi : Inv s) :
    ∃ r s', (WktCall.visit t).run print mem junk s = some (r, s') ∧ Inv s' := by
  obtain ⟨t', rfl, ht⟩ := h
  have hg := sim_visit (print := print) (mem := mem) (junk := junk) (.featStart :: t') False s s.w hi (rel_self s)
  unfold WktCall.run
  simp only []
  revert hg
  cases visitByFeature (handler print mem junk) (feed (handler print mem junk) (.featStart :: t')) s with
  | ok a s2 => rintro ⟨b', _, h2, _⟩; exact ⟨_, _, rfl, h2⟩
  | err rc s2 => intro hg; exact ⟨_, _, rfl, hg.1⟩
  | ub => intro hg; exact absurd hg (visit_defined hp ht s.w)

/-- Proper calls: undefined only in a `finish` that is refused memory half-way. -/
theorem proper_run (hp : ∀ n x, (print n x).length ≤ 40) : ∀ (cs : List WktCall), (∀ c ∈ cs, c.Proper) → ∀ {s : OWkt}, Inv s →
    (∃ rs s', wktRuns print mem junk cs s = some (rs, s') ∧ Inv s') ∨
    (∃ pre post rs s', cs = pre ++ .finish :: post ∧ wktRuns print mem junk pre s = some (rs, s') ∧
      ∃ k, s'.asked ≤ k ∧ k ≤ s'.asked + 1 ∧ mem k = true ∧ mem (k + 1) = false)
  | [], _, s, hi => Or.inl ⟨[], s, rfl, hi⟩
  | c :: cs, hq, s, hi => by
    have next : ∀ {r s1}, c.run print mem junk s = some (r, s1) → Inv s1 →
        (∃ rs s', wktRuns print mem junk (c :: cs) s = some (rs, s') ∧ Inv s') ∨
        (∃ pre post rs s', c :: cs = pre ++ .finish :: post ∧ wktRuns print mem junk pre s = some (rs, s') ∧
          ∃ k, s'.asked ≤ k ∧ k ≤ s'.asked + 1 ∧ mem k = true ∧ mem (k + 1) = false) := by
      intro r s1 e i1
      rcases proper_run hp cs (fun c h => hq c (List.mem_cons_of_mem _ h)) i1 with ⟨rs, s', e', i'⟩ | ⟨pre, post, rs, s', e1, e2, e3⟩
      · exact Or.inl ⟨r :: rs, s', by rw [wktRuns_cons e, e']; rfl, i'⟩
      · exact Or.inr ⟨c :: pre, post, r :: rs, s', by rw [e1]; rfl, by rw [wktRuns_cons e, e2]; rfl, e3⟩
    cases c with
    | finish =>
      cases e : finish mem s with
      | some p => exact next (r := p.1) (s1 := p.2) e (finish_inv hi e)
      | none =>
        rcases finish_cases (mem := mem) s hi with ⟨_, e'⟩ | ⟨_, ⟨s1, e', _⟩ | ⟨_, hk⟩ | ⟨rc, s1, k, e', _⟩⟩
        · rw [e] at e'; cases e'
        · rw [e] at e'; cases e'
        · exact Or.inr ⟨[], cs, [], s, rfl, rfl, hk⟩
        · rw [e] at e'; cases e'
    | visit t =>
      obtain ⟨r, s1, e, i1⟩ := proper_step (mem := mem) (junk := junk) hp (hq _ (List.mem_cons_self ..)) hi
      exact next e i1

/-- Sane after every callback. -/
theorem handler_sane (hp : ∀ n x, (print n x).length ≤ 40) (e : Event) (he : EvenCoords e) {s : OWkt} (hi : Inv s) (hs : s.w.Sane) :
    match handler print mem junk e s with
    | .ok _ s' => Inv s' ∧ s'.w.Sane
    | .err _ s' => Inv s' ∧ s'.w.Sane
    | .ub => False := by
  have hg := sim_handler (print := print) (mem := mem) (junk := junk) e False s s.w hi (rel_self s)
  have hq : Out (fun s' : OWkt => s'.w.Sane) (handler print mem junk e s) := by
    by_cases h : e = .featStart
    · subst h
      show Out _ (featStart mem s)
      unfold featStart
      simp only []
      split
      · exact ⟨by simp, Int.natCast_nonneg _⟩
      · unfold offsetsAppend
        simp only []
        split
        · exact ⟨by simp, Int.natCast_nonneg _⟩
        · split
          · exact ⟨by simp, Int.natCast_nonneg _⟩
          · exact ⟨by simp, Int.natCast_nonneg _⟩
    · have h1 := same_handler (print := print) (mem := mem) (junk := junk) e h s
      revert h1
      cases handler print mem junk e s with
      | ok _ s' => exact fun h1 => ⟨by rw [h1.length]; exact hs.1, by rw [h1.start]; exact hs.2⟩
      | err _ s' => exact fun h1 => ⟨by rw [h1.length]; exact hs.1, by rw [h1.start]; exact hs.2⟩
      | ub => exact id
  revert hg hq
  cases handler print mem junk e s with
  | ok _ s' => rintro ⟨b', _, h2, _⟩ hq; exact ⟨h2, hq⟩
  | err _ s' => intro hg hq; exact ⟨hg.1, hq⟩
  | ub =>
    intro hg _
    have h1 := handler_sound hp e he hs
    have h2 : wktHandler print e s.w = .ub := hg
    rw [h2] at h1
    exact h1

theorem callbacks_defined (hp : ∀ n x, (print n x).length ≤ 40) : ∀ (es : List Event), (∀ e ∈ es, EvenCoords e) → ∀ {s : OWkt}, Inv s → s.w.Sane →
    CallbacksDefined (handler print mem junk) es s
  | [], _, _, _, _ => trivial
  | e :: es, he, s, hi, hs => by
    have h := handler_sane (print := print) (mem := mem) (junk := junk) hp e (he e (by simp)) hi hs
    unfold CallbacksDefined
    revert h
    cases handler print mem junk e s with
    | ok _ s' => exact fun h => callbacks_defined hp es (fun e' h' => he e' (by simp [h'])) h.1 h.2
    | err _ s' => exact fun h => callbacks_defined hp es (fun e' h' => he e' (by simp [h'])) h.1 h.2
    | ub => exact id

theorem start_defined {s : OWkt} (hi : Inv s) : match handler print mem junk .featStart s with
    | .ok _ s' => Inv s' ∧ s'.w.Sane
    | .err _ s' => Inv s' ∧ s'.w.Sane
    | .ub => False := by
  show match featStart mem s with
    | .ok _ s' => Inv s' ∧ s'.w.Sane
    | .err _ s' => Inv s' ∧ s'.w.Sane
    | .ub => False
  unfold featStart
  simp only []
  split
  · rename_i h
    by_cases h1 : s.w.values.length > 2147483647
    · rw [if_pos h1] at h; cases h
    · rw [if_neg h1] at h
      unfold offsetsAppend at h
      simp only [] at h
      split at h
      · cases h; exact ⟨⟨hi.bits, hi.noBits⟩, by simp, Int.natCast_nonneg _⟩
      · split at h
        · cases h; exact ⟨⟨hi.bits, hi.noBits⟩, by simp, Int.natCast_nonneg _⟩
        · cases h
  · rename_i h
    by_cases h1 : s.w.values.length > 2147483647
    · rw [if_pos h1] at h; cases h; exact ⟨⟨hi.bits, hi.noBits⟩, by simp, Int.natCast_nonneg _⟩
    · rw [if_neg h1] at h
      unfold offsetsAppend at h
      simp only [] at h
      split at h
      · cases h
      · split at h
        · cases h
        · cases h; exact ⟨⟨hi.bits, hi.noBits⟩, by simp, Int.natCast_nonneg _⟩
  · rename_i h
    by_cases h1 : s.w.values.length > 2147483647
    · rw [if_pos h1] at h; cases h
    · rw [if_neg h1] at h
      unfold offsetsAppend at h
      simp only [] at h
      split at h
      · cases h
      · split at h <;> cases h

theorem rel_begins {s : OWkt} (h : WktBegins mem s) : Rel True s s.w := ⟨rfl, rfl, fun _ => ⟨rfl, fun _ => (begins_inv h).2.2⟩⟩

theorem enough_run (hp : ∀ n x, (print n x).length ≤ 40) (hm : ∀ k, mem k = true) : ∀ (cs : List WktCall) (gs : List (Option Geom)), WktSayAll cs gs →
    ∀ {s : OWkt} {b : WktW}, Inv s → Rel True s b →
    b.values.length + (elemBytes (gs.map fun o => o.map (textOf print b))).length ≤ 2147483647 → ∃ rs s', wktRuns print mem junk cs s = some (rs, s') ∧ AllFine rs
  | [], [], _, s, b, _, _, _ => ⟨[], s, rfl, fun r h => absurd h (by simp)⟩
  | c :: cs, g :: gs, h, s, b, hi, hr, hl => by
    obtain ⟨rc, s1, e1, st⟩ := says_step (mem := mem) (junk := junk) hp h.1 hi hr
    have hv : (elemBytes ((g :: gs).map fun o => o.map (textOf print b))).length =
        ((g.map (textOf print b)).getD []).length + (elemBytes (gs.map fun o => o.map (textOf print b))).length := by simp [elemBytes]
    rcases st.code with ⟨h0, _, b1, e, r1, ad, ft⟩ | ⟨_, k, _, _, hk⟩ | ⟨_, _, h0⟩
    · have ht : textOf print b1 = textOf print b := by unfold textOf; rw [ad.options.1, ad.options.2]
      have hle := fits_length ft
      obtain ⟨rs, s', e2, f2⟩ := enough_run hp hm cs gs h.2 st.inv r1 (by rw [ad.values, List.length_append, ht]; omega)
      refine ⟨(rc, none) :: rs, s', by rw [wktRuns_cons e1, e2]; rfl, ?_⟩
      intro r hr
      rcases List.mem_cons.1 hr with rfl | hr
      · exact h0
      · exact f2 r hr
    · rw [hm k] at hk; cases hk
    · omega
  | [], _ :: _, h, _, _, _, _, _ => h.elim
  | _ :: _, [], h, _, _, _, _, _ => h.elim

theorem elements_length {max : Int} {txt : Geom → List Byte} : ∀ {n : Bool} {gs : List (Option Geom)} {es : List (Option (List Byte))},
    ElementsFor max txt n gs es → (elemBytes es).length ≤ (elemBytes (gs.map fun o => o.map txt)).length
  | _, [], [], _ => Nat.le_refl _
  | n, none :: gs, none :: es, h => by
    have := elements_length (n := true) (gs := gs) (es := es) h
    simpa [elemBytes] using this
  | n, some g :: gs, some e :: es, h => by
    have h1 := elements_length (n := n) (gs := gs) (es := es) h.2
    have h2 := fits_length (max := max) (txt := txt) (n := n) (o := some g) (e := some e) h.1
    simp only [elemBytes, List.map_cons, List.flatMap_cons, List.length_append, Option.map_some, Option.getD_some] at h1 h2 ⊢
    omega
  | _, [], _ :: _, h => by simp [ElementsFor] at h
  | _, _ :: _, [], h => by simp [ElementsFor] at h
  | _, none :: _, some _ :: _, h => by simp [ElementsFor] at h
  | _, some _ :: _, none :: _, h => by simp [ElementsFor] at h

theorem wouldBe_canon {b : WktW} {els : List (Option (List Byte))} (h : b.core.Has els) : wouldBe b = canonArray els := by
  have h1 := h.validity
  have h2 := h.offsets
  have h3 := h.values
  have h4 := h.length
  have h5 := h.nulls
  simp only [WktW.core] at h1 h2 h3 h4 h5
  unfold wouldBe canonArray
  rw [h1, h2, h3, h4, h5]

end Verif.TOom
