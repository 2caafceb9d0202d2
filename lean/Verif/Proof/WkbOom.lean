import Verif.Spec.WkbOom
import Verif.Proof.WkbHistory
import Verif.Proof.WkbNesting
/-!
# The WKB writer whose requests may be refused follows the WKB writer
-/
namespace Verif.WOom
open Verif Spec
open Verif.Oom (ENOMEM)

variable {mem : Nat → Bool} {junk : Nat → Nat → Bool}

/-- Sizes and capacities agree. -/
structure Inv (s : OWkb) : Prop where
  fits : s.w.values.length ≤ s.valuesCap
  empty : s.w.values = [] → s.valuesCap = 0
  bits : ∀ l, s.w.validity = some l → l.length = s.sizeBits ∧ (s.sizeBits + 7) / 8 ≤ s.bitsCap ∧ 0 < s.bitsCap
  noBits : s.w.validity = none → s.bitsCap = 0

/-- The writer looks like one that was never refused memory, apart from its bitmap; and if `ex`, its bitmap too. -/
structure Rel (ex : Prop) (s : OWkb) (b : WkbW) : Prop where
  like : b = { s.w with validity := b.validity }
  some : b.validity.isSome = s.w.validity.isSome
  exact : ex → b = s.w ∧ (s.w.validity = none → s.sizeBits = 0)

/-- All requests between two states were granted. -/
def Granted (mem : Nat → Bool) (s s' : OWkb) : Prop := s.asked ≤ s'.asked ∧ ∀ k, s.asked ≤ k → k < s'.asked → mem k = true

theorem Granted.refl (s : OWkb) : Granted mem s s := ⟨Nat.le_refl _, fun k h1 h2 => absurd h2 (by omega)⟩

theorem Granted.trans {a b c : OWkb} (h : Granted mem a b) (h' : Granted mem b c) : Granted mem a c :=
  ⟨Nat.le_trans h.1 h'.1, fun k h1 h2 => if hk : k < b.asked then h.2 k h1 hk else h'.2 k (by omega) h2⟩

theorem Granted.same {a b : OWkb} (h : b.asked = a.asked) : Granted mem a b := ⟨by omega, fun k h1 h2 => absurd h2 (by omega)⟩

theorem Granted.one {a b : OWkb} (h : b.asked = a.asked + 1) (hm : mem a.asked = true) : Granted mem a b :=
  ⟨by omega, fun k h1 h2 => by have : k = a.asked := by omega
                               rw [this]; exact hm⟩

/-- How the outcome with refusals relates to the outcome without. -/
def Good {α : Type} (mem : Nat → Bool) (ex : Prop) (s : OWkb) : Res OWkb α → Res WkbW α → Prop
  | .ok a s', r => ∃ b', r = .ok a b' ∧ Inv s' ∧ Rel ex s' b' ∧ Granted mem s s'
  | .err rc s', r => Inv s' ∧ s.asked ≤ s'.asked ∧ ((rc = ENOMEM ∧ Refused mem s s') ∨ (Granted mem s s' ∧ ∃ b', r = .err rc b'))
  | .ub, r => r = .ub

def Sim {α : Type} (mem : Nat → Bool) (x : M OWkb α) (y : M WkbW α) : Prop :=
  ∀ ex s b, Inv s → Rel ex s b → Good mem ex s (x s) (y b)

theorem Good.after {α : Type} {ex : Prop} {s s' : OWkb} (h : Granted mem s s') {x : Res OWkb α} {y : Res WkbW α} (hg : Good mem ex s' x y) :
    Good mem ex s x y := by
  cases x with
  | ok a s'' =>
    obtain ⟨b', h1, h2, h3, h4⟩ := hg
    exact ⟨b', h1, h2, h3, h.trans h4⟩
  | err rc s'' =>
    obtain ⟨h1, h2, h3⟩ := hg
    refine ⟨h1, Nat.le_trans h.1 h2, ?_⟩
    rcases h3 with ⟨e, k, k1, k2, k3⟩ | ⟨e, b', hb⟩
    · exact Or.inl ⟨e, k, Nat.le_trans h.1 k1, k2, k3⟩
    · exact Or.inr ⟨h.trans e, b', hb⟩
  | ub => exact hg

theorem Sim.bind {α β : Type} {x : M OWkb α} {y : M WkbW α} {f : α → M OWkb β} {g : α → M WkbW β} (h : Sim mem x y)
    (hf : ∀ a, Sim mem (f a) (g a)) : Sim mem (x >>= f) (y >>= g) := by
  intro ex s b hi hr
  have h1 := h ex s b hi hr
  rw [M.bind_run, M.bind_run]
  revert h1
  cases x s with
  | ok a s' =>
    rintro ⟨b', e, i', r', g'⟩
    rw [e]
    exact Good.after g' (hf a ex s' b' i' r')
  | err rc s' =>
    rintro ⟨h1, h2, h3⟩
    refine ⟨h1, h2, ?_⟩
    rcases h3 with h3 | ⟨e, b', hb⟩
    · exact Or.inl h3
    · rw [hb]; exact Or.inr ⟨e, b', rfl⟩
  | ub =>
    intro h1
    have h2 : y b = .ub := h1
    rw [h2]
    rfl

theorem Sim.get {β : Type} {f : OWkb → M OWkb β} {g : WkbW → M WkbW β}
    (h : ∀ ex s b, Inv s → Rel ex s b → Good mem ex s (f s s) (g b b)) : Sim mem (M.get >>= f) (M.get >>= g) :=
  fun ex s b hi hr => h ex s b hi hr

theorem Sim.pure {α : Type} (a : α) : Sim mem (pure a) (pure a) :=
  fun _ s b hi hr => ⟨b, rfl, hi, hr, Granted.refl s⟩

theorem Sim.fail {α : Type} (rc : Code) : Sim mem (M.fail rc : M OWkb α) (M.fail rc) :=
  fun _ s b hi _ => ⟨hi, Nat.le_refl _, Or.inr ⟨Granted.refl s, b, rfl⟩⟩

theorem Sim.entry (i : Nat) : Sim mem (levelEntry i) (levelEntry i) := by
  intro ex s b hi hr
  unfold levelEntry
  by_cases h : i < 32
  · rw [if_pos h, if_pos h]; exact ⟨b, rfl, hi, hr, Granted.refl s⟩
  · rw [if_neg h, if_neg h]; rfl

def Res.mapState {σ τ α : Type} (f : σ → τ) : Res σ α → Res τ α
  | .ok a s => .ok a (f s)
  | .err rc s => .err rc (f s)
  | .ub => .ub

/-- Neither looks at the bitmap nor changes the amount of data. -/
structure Blind {α : Type} (f : M WkbW α) : Prop where
  comm : ∀ w v, f { w with validity := v } = Res.mapState (fun w' => { w' with validity := v }) (f w)
  size : ∀ w, match f w with
    | .ok _ w' => w'.values.length = w.values.length ∧ w'.validity = w.validity
    | .err _ w' => w'.values.length = w.values.length ∧ w'.validity = w.validity
    | .ub => True

theorem Sim.lift {α : Type} {f : M WkbW α} (hb : Blind f) : Sim mem (lift f) f := by
  intro ex s b hi hr
  have hc := hb.comm s.w b.validity
  rw [← hr.like] at hc
  have hs := hb.size s.w
  rw [hc]
  unfold WOom.lift
  cases hf : f s.w with
  | ok a w' =>
    rw [hf] at hs
    obtain ⟨hl, hv⟩ := hs
    refine ⟨_, rfl, ⟨by rw [hl]; exact hi.fits, fun h => hi.empty (List.eq_nil_of_length_eq_zero (by rw [← hl, h]; rfl)),
      by rw [hv]; exact hi.bits, by rw [hv]; exact hi.noBits⟩, ⟨rfl, ?_, ?_⟩, Granted.same rfl⟩
    · show b.validity.isSome = w'.validity.isSome
      rw [hv]; exact hr.some
    · intro h
      obtain ⟨e1, e2⟩ := hr.exact h
      refine ⟨?_, by rw [hv]; exact e2⟩
      show { w' with validity := b.validity } = w'
      rw [e1, ← hv]
  | err rc w' =>
    rw [hf] at hs
    obtain ⟨hl, hv⟩ := hs
    exact ⟨⟨by rw [hl]; exact hi.fits, fun h => hi.empty (List.eq_nil_of_length_eq_zero (by rw [← hl, h]; rfl)),
      by rw [hv]; exact hi.bits, by rw [hv]; exact hi.noBits⟩, Nat.le_refl _, Or.inr ⟨Granted.same rfl, _, rfl⟩⟩
  | ub => rfl

theorem growByFactor_ge (c n : Nat) : n ≤ growByFactor c n := by unfold growByFactor; split <;> omega

theorem rel_validity {ex : Prop} {s : OWkb} {b : WkbW} (hr : Rel ex s b) : b.values = s.w.values ∧ b.offsets = s.w.offsets ∧
    b.length = s.w.length ∧ b.level = s.w.level ∧ b.featIsNull = s.w.featIsNull ∧ b.geometryType = s.w.geometryType ∧
    b.dimensions = s.w.dimensions ∧ b.size = s.w.size ∧ b.nullCount = s.w.nullCount ∧ b.sizePos = s.w.sizePos := by
  have := hr.like
  refine ⟨?_, ?_, ?_, ?_, ?_, ?_, ?_, ?_, ?_, ?_⟩ <;> rw [this]

theorem sim_values (bs : List Byte) : Sim mem (valuesAppend mem bs) (wkbAppend bs) := by
  intro ex s b hi hr
  have hv := rel_validity hr
  have hrel : ∀ s1 : OWkb, s1.w = { s.w with values := s.w.values ++ bs } → s1.sizeBits = s.sizeBits →
      Rel ex s1 { b with values := b.values ++ bs } := by
    intro s1 h1 h2
    refine ⟨?_, ?_, ?_⟩
    · rw [h1, hr.like]
    · rw [h1]; exact hr.some
    · intro h
      obtain ⟨e1, e2⟩ := hr.exact h
      rw [h1, h2, e1]
      exact ⟨rfl, e2⟩
  unfold valuesAppend valuesReserve
  rw [M.bind_run]
  simp only []
  by_cases h : s.w.values.length + bs.length ≤ s.valuesCap
  · rw [if_pos h]
    simp only [valuesUnsafe]
    rw [if_pos h]
    refine ⟨_, rfl, ⟨by simpa using h, ?_, hi.bits, hi.noBits⟩, hrel _ rfl rfl, Granted.same rfl⟩
    intro h0
    exact hi.empty (List.append_eq_nil_iff.mp h0).1
  · rw [if_neg h]
    cases hm : mem s.asked with
    | true =>
      simp only [if_true, valuesUnsafe]
      rw [if_pos (growByFactor_ge _ _)]
      refine ⟨_, rfl, ⟨by simpa using growByFactor_ge s.valuesCap (s.w.values.length + bs.length), ?_, hi.bits, hi.noBits⟩, hrel _ rfl rfl,
        Granted.one rfl hm⟩
      intro h0
      have h1 := List.append_eq_nil_iff.mp h0
      rw [h1.1, h1.2] at h
      simp at h
    | false =>
      simp only [Bool.false_eq_true, if_false]
      exact ⟨⟨Nat.le_refl _, fun _ => rfl, hi.bits, hi.noBits⟩, Nat.le_succ _, Or.inl ⟨rfl, s.asked, Nat.le_refl _, Nat.lt_succ_self _, hm⟩⟩

theorem sim_offsets (v : Int) : Sim mem (offsetsAppend mem v) (M.modify fun w => { w with offsets := w.offsets ++ [v] }) := by
  intro ex s b hi hr
  have hrel : ∀ s1 : OWkb, s1.w = { s.w with offsets := s.w.offsets ++ [v] } → s1.sizeBits = s.sizeBits →
      Rel ex s1 { b with offsets := b.offsets ++ [v] } := by
    intro s1 h1 h2
    refine ⟨?_, ?_, ?_⟩
    · rw [h1, hr.like]
    · rw [h1]; exact hr.some
    · intro h
      obtain ⟨e1, e2⟩ := hr.exact h
      rw [h1, h2, e1]
      exact ⟨rfl, e2⟩
  unfold offsetsAppend
  split
  · exact ⟨_, rfl, ⟨hi.fits, hi.empty, hi.bits, hi.noBits⟩, hrel _ rfl rfl, Granted.same rfl⟩
  · cases hm : mem s.asked with
    | true => exact ⟨_, rfl, ⟨hi.fits, hi.empty, hi.bits, hi.noBits⟩, hrel _ rfl rfl, Granted.one rfl hm⟩
    | false =>
      exact ⟨⟨hi.fits, hi.empty, hi.bits, hi.noBits⟩, Nat.le_succ _, Or.inl ⟨rfl, s.asked, Nat.le_refl _, Nat.lt_succ_self _, hm⟩⟩

theorem blind_modify {f : WkbW → WkbW} (h1 : ∀ w v, f { w with validity := v } = { f w with validity := v })
    (h2 : ∀ w, (f w).values.length = w.values.length ∧ (f w).validity = w.validity) : Blind (M.modify f) :=
  ⟨fun w v => by rw [M.modify_run, M.modify_run, h1]; rfl, fun w => by rw [M.modify_run]; exact h2 w⟩

theorem blind_level : Blind wkbCheckLevel := by
  refine ⟨fun w v => ?_, fun w => ?_⟩ <;> unfold wkbCheckLevel
  · simp only []
    split <;> rfl
  · by_cases h : 0 ≤ w.level ∧ w.level ≤ 30
    · rw [if_pos h]; exact ⟨rfl, rfl⟩
    · rw [if_neg h]; exact ⟨rfl, rfl⟩

theorem bufWrite_length {v v' bs : List Byte} {p : Nat} (h : bufWrite v p bs = some v') : v'.length = v.length := by
  unfold bufWrite at h
  split at h
  · cases h
    simp only [List.length_append, List.length_take, List.length_drop]
    omega
  · cases h

theorem blind_patch (l : Nat) : Blind (do
    wkbPatch l
    M.modify fun s => { s with level := s.level - 1 } : M WkbW Unit) := by
  refine ⟨fun w v => ?_, fun w => ?_⟩ <;> rw [M.bind_run] <;> try rw [M.bind_run]
  · unfold wkbPatch
    simp only []
    by_cases h : w.sizePos l < 0
    · rw [if_pos h, if_pos h]; rfl
    · rw [if_neg h, if_neg h]
      cases bufWrite w.values (w.sizePos l).toNat (leBytes 4 (w.size l)) <;> rfl
  · unfold wkbPatch
    by_cases h : w.sizePos l < 0
    · rw [if_pos h]; trivial
    · rw [if_neg h]
      cases hb : bufWrite w.values (w.sizePos l).toNat (leBytes 4 (w.size l)) with
      | none => trivial
      | some v => exact ⟨bufWrite_length hb, rfl⟩

theorem blind_up : Blind (M.modify fun s : WkbW => { s with level := s.level - 1 }) := blind_modify (fun _ _ => rfl) (fun _ => ⟨rfl, rfl⟩)

theorem sim_geomStart (gt dims : Nat) : Sim mem (geomStart mem gt dims) (wkbGeomStart gt dims) := by
  unfold geomStart wkbGeomStart
  refine Sim.bind (Sim.lift blind_level) fun l => Sim.bind (Sim.entry _) fun _ => Sim.bind (Sim.lift ?_) fun _ => Sim.bind (sim_values _) fun _ =>
    Sim.bind (sim_values _) fun _ => ?_
  · exact blind_modify (fun _ _ => rfl) (fun _ => ⟨rfl, rfl⟩)
  · split
    · exact Sim.bind (Sim.lift (blind_modify (fun _ _ => rfl) (fun _ => ⟨rfl, rfl⟩))) fun _ => sim_values _
    · exact Sim.pure ()

theorem sim_ringStart : Sim mem (ringStart mem) wkbRingStart := by
  unfold ringStart wkbRingStart
  exact Sim.bind (Sim.lift blind_level) fun l => Sim.bind (Sim.entry _) fun _ =>
    Sim.bind (Sim.lift (blind_modify (fun _ _ => rfl) (fun _ => ⟨rfl, rfl⟩))) fun _ => sim_values _

theorem sim_coords (cs : List (List Dbl)) : Sim mem (coordsCb mem cs) (wkbCoordsCb cs) := by
  unfold coordsCb wkbCoordsCb
  exact Sim.bind (Sim.lift blind_level) fun l => Sim.bind (Sim.entry _) fun _ =>
    Sim.bind (Sim.lift (blind_modify (fun _ _ => rfl) (fun _ => ⟨rfl, rfl⟩))) fun _ => sim_values _

theorem cap_iff {ex : Prop} {s : OWkb} {b : WkbW} (hi : Inv s) (hr : Rel ex s b) : s.valuesCap = 0 ↔ b.values = [] := by
  rw [(rel_validity hr).1]
  constructor
  · intro h
    have := hi.fits
    exact List.eq_nil_of_length_eq_zero (by omega)
  · exact hi.empty

theorem sim_ringEnd : Sim mem ringEnd wkbRingEnd := by
  unfold ringEnd wkbRingEnd
  refine Sim.bind (Sim.lift blind_level) fun l => Sim.bind (Sim.entry _) fun _ => Sim.get fun ex s b hi hr => ?_
  by_cases h : b.values = []
  · rw [if_pos h, if_pos ((cap_iff hi hr).mpr h)]
    exact Sim.fail _ ex s b hi hr
  · rw [if_neg h, if_neg (fun h' => h ((cap_iff hi hr).mp h'))]
    exact Sim.lift (blind_patch l) ex s b hi hr

theorem sim_geomEnd : Sim mem (geomEnd mem) wkbGeomEnd := by
  unfold geomEnd wkbGeomEnd
  refine Sim.bind (Sim.lift blind_level) fun l => Sim.bind (Sim.entry _) fun _ => Sim.get fun ex s b hi hr => ?_
  have hv := rel_validity hr
  rw [hv.2.2.2.2.2.1, hv.2.2.2.2.2.2.1, hv.2.2.2.2.2.2.2.1]
  by_cases h : b.values = []
  · rw [if_pos h, if_pos ((cap_iff hi hr).mpr h)]
    exact Sim.fail _ ex s b hi hr
  · rw [if_neg h, if_neg (fun h' => h ((cap_iff hi hr).mp h'))]
    split
    · exact Sim.lift (blind_patch l) ex s b hi hr
    · split
      · cases nvals (s.w.dimensions l) with
        | none => exact Sim.fail _ ex s b hi hr
        | some n => exact Sim.bind (sim_values _) (fun _ => Sim.lift blind_up) ex s b hi hr
      · exact Sim.lift blind_up ex s b hi hr

theorem sim_nullFeat : Sim mem (lift wkbNullFeat) wkbNullFeat := Sim.lift (blind_modify (fun _ _ => rfl) (fun _ => ⟨rfl, rfl⟩))

theorem sim_featStart : Sim mem (featStart mem) wkbFeatStart := by
  intro ex s b hi hr
  have hv := rel_validity hr
  have hi' : Inv { s with w := { s.w with level := 0, size := upd s.w.size 0 0, length := s.w.length + 1, featIsNull := false } } :=
    ⟨hi.fits, hi.empty, hi.bits, hi.noBits⟩
  have hr' : Rel ex { s with w := { s.w with level := 0, size := upd s.w.size 0 0, length := s.w.length + 1, featIsNull := false } }
      { b with level := 0, size := upd b.size 0 0, length := b.length + 1, featIsNull := false } := by
    refine ⟨?_, hr.some, ?_⟩
    · rw [hr.like]
    · intro h
      obtain ⟨e1, e2⟩ := hr.exact h
      exact ⟨by rw [e1], e2⟩
  have hlen : b.values.length = s.w.values.length := by rw [hv.1]
  unfold featStart wkbFeatStart
  simp only []
  by_cases h : s.w.values.length > 2147483647
  · rw [if_pos h, if_pos (by rw [hlen]; exact h)]
    exact ⟨hi', Nat.le_refl _, Or.inr ⟨Granted.same rfl, _, rfl⟩⟩
  · rw [if_neg h, if_neg (by rw [hlen]; exact h)]
    have := sim_offsets (mem := mem) (s.w.values.length : Int) ex _ _ hi' hr'
    rw [hlen]
    exact Good.after (Granted.same rfl) this

/-- Appending to a bitmap that is there. -/
theorem bits_there {s : OWkb} {l : List Bool} (hi : Inv s) (hl : s.w.validity = some l) (b : Bool) :
    (∃ s', bitsAppend mem junk b s = .ok () s' ∧ Inv s' ∧ Granted mem s s' ∧ s'.w = { s.w with validity := some (l ++ [b]) }) ∨
    (∃ s', bitsAppend mem junk b s = .err ENOMEM s' ∧ Inv s' ∧ s.asked ≤ s'.asked ∧ Refused mem s s') := by
  obtain ⟨h1, h2, h3⟩ := hi.bits l hl
  unfold bitsAppend bitsReserve
  rw [M.bind_run]
  simp only []
  by_cases h : (s.sizeBits + 1 + 7) / 8 ≤ s.bitsCap
  · rw [if_pos h]
    simp only [bitsUnsafe, hl]
    rw [if_pos h]
    refine Or.inl ⟨_, rfl, ⟨hi.fits, hi.empty, ?_, fun h => (by cases h)⟩, Granted.same rfl, rfl⟩
    intro l' e
    cases e
    exact ⟨by simp [h1], h, h3⟩
  · rw [if_neg h]
    cases hm : mem s.asked with
    | true =>
      simp only [if_true, bitsUnsafe, hl, Option.getD_some]
      have hg := growByFactor_ge s.bitsCap ((s.sizeBits + 1 + 7) / 8)
      rw [if_pos hg]
      refine Or.inl ⟨_, rfl, ⟨hi.fits, hi.empty, ?_, fun h => (by cases h)⟩, Granted.one rfl hm, rfl⟩
      intro l' e
      cases e
      refine ⟨by simp [h1], hg, ?_⟩
      show 0 < growByFactor s.bitsCap ((s.sizeBits + 1 + 7) / 8)
      omega
    | false =>
      exact Or.inr ⟨_, rfl, ⟨hi.fits, hi.empty, fun l h => (by cases h), fun _ => rfl⟩, Nat.le_succ _, s.asked, Nat.le_refl _, Nat.lt_succ_self _, hm⟩

/-- What a null does to the bitmap and its count, without refusals. -/
def refNull : M WkbW Unit := fun b =>
  match bitsAppendNull b.validity b.length with
  | none => .ub
  | some l => .ok () { b with validity := some l, nullCount := b.nullCount + 1 }

/-- The bitmap before the null itself, without refusals. -/
def refBegin : M WkbW Unit := fun b =>
  match b.validity with
  | none => if b.length = 0 then .ub else .ok () { b with validity := some (List.replicate (b.length - 1) true) }
  | some _ => .ok () b

theorem rel_none {ex : Prop} {s : OWkb} {b : WkbW} (hr : Rel ex s b) (hb : s.w.validity = none) : b.validity = none := by
  have hsome := hr.some
  cases hq : b.validity with
  | none => rfl
  | some x => rw [hq, hb] at hsome; cases hsome

theorem rel_some {ex : Prop} {s : OWkb} {b : WkbW} {l : List Bool} (hr : Rel ex s b) (hb : s.w.validity = some l) : ∃ l', b.validity = some l' :=
  Option.isSome_iff_exists.mp (by rw [hr.some, hb]; rfl)

theorem good_begin {ex : Prop} {s : OWkb} {b : WkbW} (hi : Inv s) (hr : Rel ex s b) :
    Good mem ex s (bitsBegin mem junk s) (refBegin b) ∧ ∀ s', bitsBegin mem junk s = .ok () s' → s'.w.validity.isSome = true := by
  have hv := rel_validity hr
  unfold bitsBegin refBegin
  cases hb : s.w.validity with
  | some l =>
    obtain ⟨l', hl'⟩ := rel_some hr hb
    rw [hl']
    simp only [Option.isNone_some, Bool.false_eq_true, if_false]
    refine ⟨⟨b, rfl, hi, hr, Granted.refl s⟩, ?_⟩
    intro s' e
    cases e
    rw [hb]; rfl
  | none =>
    have hbn := rel_none hr hb
    rw [hbn, hv.2.2.1]
    simp only [Option.isNone_none, if_true]
    by_cases h0 : s.w.length = 0
    · rw [if_pos h0, if_pos h0]
      exact ⟨rfl, fun s' e => by cases e⟩
    · rw [if_neg h0, if_neg h0]
      have hcap := hi.noBits hb
      have hneed : ¬ (s.sizeBits + s.w.length + 7) / 8 ≤ s.bitsCap := by rw [hcap]; omega
      unfold bitsReserve
      rw [if_neg hneed]
      cases hm : mem s.asked with
      | false =>
        simp only [Bool.false_eq_true, if_false]
        exact ⟨⟨⟨hi.fits, hi.empty, fun l h => (by cases h), fun _ => rfl⟩, Nat.le_succ _, Or.inl ⟨rfl, s.asked, Nat.le_refl _, Nat.lt_succ_self _, hm⟩⟩,
          fun s' e => by cases e⟩
      | true =>
        have hg := growByFactor_ge s.bitsCap ((s.sizeBits + s.w.length + 7) / 8)
        simp only [if_true, hb, Option.getD_none, bitsUnsafe]
        rw [if_pos (by omega)]
        refine ⟨⟨_, rfl, ⟨hi.fits, hi.empty, ?_, fun h => (by cases h)⟩, ⟨?_, rfl, ?_⟩, Granted.one rfl hm⟩, ?_⟩
        · intro l e
          cases e
          refine ⟨by simp, ?_, ?_⟩
          · show (s.sizeBits + (s.w.length - 1) + 7) / 8 ≤ growByFactor s.bitsCap ((s.sizeBits + s.w.length + 7) / 8)
            omega
          · show 0 < growByFactor s.bitsCap ((s.sizeBits + s.w.length + 7) / 8)
            omega
        · rw [hr.like]
        · intro h
          obtain ⟨e1, e2⟩ := hr.exact h
          refine ⟨?_, fun h => (by cases h)⟩
          rw [e1, e2 hb]
          rfl
        · intro s' e
          cases e
          rfl

theorem sim_bitsNull : Sim mem (bitsNull mem junk) refNull := by
  intro ex s b hi hr
  obtain ⟨hg, hs⟩ := good_begin (mem := mem) (junk := junk) hi hr
  have hy : refNull b = (refBegin >>= fun _ => (M.modify fun b : WkbW => { b with nullCount := b.nullCount + 1 }) >>= fun _ =>
      (M.modify fun b : WkbW => { b with validity := b.validity.map (· ++ [false]) }) : M WkbW Unit) b := by
    unfold refNull refBegin bitsAppendNull
    rw [M.bind_run]
    cases hb : b.validity with
    | none =>
      simp only []
      by_cases h0 : b.length = 0
      · rw [if_pos h0, if_pos h0]
      · rw [if_neg h0, if_neg h0]; rfl
    | some l =>
      simp only []
      rw [M.bind_run]
      simp only [M.modify_run, hb]
      rfl
  rw [hy]
  unfold bitsNull
  rw [M.bind_run, M.bind_run]
  revert hg hs
  cases bitsBegin mem junk s with
  | ub =>
    intro hg _
    have : refBegin b = .ub := hg
    rw [this]; rfl
  | err rc s' =>
    rintro ⟨h1, h2, h3⟩ _
    refine ⟨h1, h2, ?_⟩
    rcases h3 with h3 | ⟨e, b', hb⟩
    · exact Or.inl h3
    · rw [hb]; exact Or.inr ⟨e, b', rfl⟩
  | ok u s' =>
    rintro ⟨b', e, i', r', g'⟩ hs
    rw [e]
    obtain ⟨l, hl⟩ := Option.isSome_iff_exists.mp (hs s' rfl)
    obtain ⟨l', hl'⟩ := rel_some r' hl
    show Good mem ex s (bitsAppend mem junk false { s' with w := { s'.w with nullCount := s'.w.nullCount + 1 } })
      (.ok () { b' with nullCount := b'.nullCount + 1, validity := b'.validity.map (· ++ [false]) })
    have hi1 : Inv { s' with w := { s'.w with nullCount := s'.w.nullCount + 1 } } := ⟨i'.fits, i'.empty, i'.bits, i'.noBits⟩
    refine Good.after (g'.trans (Granted.same (b := { s' with w := { s'.w with nullCount := s'.w.nullCount + 1 } }) rfl)) ?_
    rcases bits_there (mem := mem) (junk := junk) hi1 hl false with ⟨s2, e2, i2, g2, w2⟩ | ⟨s2, e2, i2, a2, r2⟩
    · rw [e2]
      refine ⟨_, rfl, i2, ⟨?_, ?_, ?_⟩, g2⟩
      · rw [w2, r'.like]
      · rw [w2, hl']; rfl
      · intro h
        obtain ⟨x1, x2⟩ := r'.exact h
        rw [w2]
        refine ⟨?_, fun h => (by cases h)⟩
        rw [x1, hl]
        rfl
    · rw [e2]
      exact ⟨i2, a2, Or.inl ⟨rfl, r2⟩⟩

theorem sim_bitsValid : Sim mem (bitsValid mem junk) (M.modify fun b => { b with validity := bitsAppendValid b.validity }) := by
  intro ex s b hi hr
  have hsome := hr.some
  unfold bitsValid
  rw [M.modify_run]
  cases hb : s.w.validity with
  | none =>
    have hbn : b.validity = none := by
      cases hq : b.validity with
      | none => rfl
      | some x => rw [hq, hb] at hsome; cases hsome
    simp only [Option.isSome_none, Bool.false_eq_true, if_false]
    refine ⟨_, rfl, hi, ?_, Granted.refl s⟩
    have : ({ b with validity := bitsAppendValid b.validity } : WkbW) = b := by
      have h : bitsAppendValid b.validity = b.validity := by rw [hbn]; rfl
      rw [h]
    rw [this]
    exact hr
  | some l =>
    obtain ⟨l', hl'⟩ : ∃ l', b.validity = some l' := Option.isSome_iff_exists.mp (by rw [hsome, hb]; rfl)
    simp only [Option.isSome_some, if_true]
    rcases bits_there (mem := mem) (junk := junk) hi hb true with ⟨s', e, i', g', w'⟩ | ⟨s', e, i', a', r'⟩
    · rw [e]
      refine ⟨_, rfl, i', ⟨?_, ?_, ?_⟩, g'⟩
      · rw [w', hr.like]
      · rw [w', hl']; rfl
      · intro h
        obtain ⟨e1, e2⟩ := hr.exact h
        rw [w']
        refine ⟨?_, fun h => (by cases h)⟩
        rw [e1, hb] at hl'
        cases hl'
        rw [e1, hb]
        rfl
    · rw [e]
      exact ⟨i', a', Or.inl ⟨rfl, r'⟩⟩

theorem sim_featEnd : Sim mem (featEnd mem junk) wkbFeatEnd := by
  intro ex s b hi hr
  unfold featEnd wkbFeatEnd
  have hf := (rel_validity hr).2.2.2.2.1
  cases h : s.w.featIsNull with
  | true =>
    rw [h] at hf
    simp only [hf, if_true]
    have := sim_bitsNull (mem := mem) (junk := junk) ex s b hi hr
    unfold refNull at this
    rw [hf] at this
    exact this
  | false =>
    rw [h] at hf
    simp only [hf, Bool.false_eq_true, if_false]
    have := sim_bitsValid (mem := mem) (junk := junk) ex s b hi hr
    rw [M.modify_run, hf] at this
    exact this

theorem sim_handler (e : Event) : Sim mem (handler mem junk e) (wkbHandler e) := by
  cases e with
  | featStart => exact sim_featStart
  | nullFeat => exact sim_nullFeat
  | geomStart gt d => exact sim_geomStart gt d
  | ringStart => exact sim_ringStart
  | coords _ cs => exact sim_coords cs
  | ringEnd => exact sim_ringEnd
  | geomEnd => exact sim_geomEnd
  | featEnd => exact sim_featEnd

theorem feed_bind {σ : Type} (h : Handler σ) (e : Event) (t : List Event) : feed h (e :: t) = (h e >>= fun _ => feed h t) := by
  funext s
  rw [M.bind_run]
  unfold feed
  cases h e s <;> cases t <;> rfl

theorem sim_feed : ∀ (t : List Event), Sim mem (feed (handler mem junk) t) (feed wkbHandler t)
  | [] => Sim.pure ()
  | e :: t => by
    have : Sim mem (handler mem junk e >>= fun _ => feed (handler mem junk) t) (wkbHandler e >>= fun _ => feed wkbHandler t) :=
      Sim.bind (sim_handler e) fun _ => sim_feed t
    rw [feed_bind, feed_bind]
    exact this

/-- `GeoArrowWKBWriterAppendNull`: the offset must not wrap for the writers to agree on it, which is no matter of memory. -/
theorem sim_appendNull : Sim mem (appendNull mem junk) wkbAppendNull := by
  unfold appendNull
  intro ex s b hi hr
  have hv := rel_validity hr
  have h : Sim mem (offsetsAppend mem (toI32 s.w.values.length) >>= fun _ => lift (M.modify fun w => { w with length := w.length + 1 }) >>= fun _ => bitsNull mem junk)
      ((M.modify fun w => { w with offsets := w.offsets ++ [toI32 s.w.values.length] }) >>= fun _ => (M.modify fun w => { w with length := w.length + 1 }) >>= fun _ => refNull) :=
    Sim.bind (sim_offsets _) fun _ => Sim.bind (Sim.lift (blind_modify (fun _ _ => rfl) (fun _ => ⟨rfl, rfl⟩))) fun _ => sim_bitsNull
  have h2 := h ex s b hi hr
  have h3 : wkbAppendNull b = ((M.modify fun w => { w with offsets := w.offsets ++ [toI32 s.w.values.length] }) >>= fun _ =>
      (M.modify fun w => { w with length := w.length + 1 }) >>= fun _ => refNull : M WkbW Unit) b := by
    unfold wkbAppendNull wkbAppendValidity refNull
    rw [M.bind_run, M.bind_run]
    simp only [M.modify_run]
    rw [M.bind_run]
    simp only [M.modify_run, hv.1, Bool.false_eq_true, if_false]
    cases bitsAppendNull b.validity (b.length + 1) <;> rfl
  rw [h3]
  exact h2

end Verif.WOom
