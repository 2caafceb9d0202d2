import Verif.Spec.WktOom
import Verif.Proof.WktHistory
import Verif.Proof.WkbOomRun
/-!
# The WKT writer whose requests may be refused follows the WKT writer
-/
namespace Verif.TOom
open Verif Spec
open Verif.Oom (ENOMEM)
open Verif.WOom (growByFactor_ge feed_bind)

variable {print : Nat → Dbl → List Byte} {mem : Nat → Bool} {junk : Nat → Nat → Bool}

/-- Sizes and capacities of the bitmap agree. -/
structure Inv (s : OWkt) : Prop where
  bits : ∀ l, s.w.validity = some l → l.length = s.sizeBits ∧ (s.sizeBits + 7) / 8 ≤ s.bitsCap ∧ 0 < s.bitsCap
  noBits : s.w.validity = none → s.bitsCap = 0

/-- The writer looks like one that was never refused memory, apart from its bitmap; and if `ex`, its bitmap too. -/
structure Rel (ex : Prop) (s : OWkt) (b : WktW) : Prop where
  like : b = { s.w with validity := b.validity }
  some : b.validity.isSome = s.w.validity.isSome
  exact : ex → b = s.w ∧ (s.w.validity = none → s.sizeBits = 0)

/-- All requests between two states were granted. -/
def Granted (mem : Nat → Bool) (s s' : OWkt) : Prop := s.asked ≤ s'.asked ∧ ∀ k, s.asked ≤ k → k < s'.asked → mem k = true

theorem Granted.refl (s : OWkt) : Granted mem s s := ⟨Nat.le_refl _, fun k h1 h2 => absurd h2 (by omega)⟩

theorem Granted.trans {a b c : OWkt} (h : Granted mem a b) (h' : Granted mem b c) : Granted mem a c :=
  ⟨Nat.le_trans h.1 h'.1, fun k h1 h2 => if hk : k < b.asked then h.2 k h1 hk else h'.2 k (by omega) h2⟩

theorem Granted.same {a b : OWkt} (h : b.asked = a.asked) : Granted mem a b := ⟨by omega, fun k h1 h2 => absurd h2 (by omega)⟩

theorem Granted.one {a b : OWkt} (h : b.asked = a.asked + 1) (hm : mem a.asked = true) : Granted mem a b :=
  ⟨by omega, fun k h1 h2 => by have : k = a.asked := by omega
                               rw [this]; exact hm⟩

/-- How the outcome with refusals relates to the outcome without. -/
def Good {α : Type} (mem : Nat → Bool) (ex : Prop) (s : OWkt) : Res OWkt α → Res WktW α → Prop
  | .ok a s', r => ∃ b', r = .ok a b' ∧ Inv s' ∧ Rel ex s' b' ∧ Granted mem s s'
  | .err rc s', r => Inv s' ∧ s.asked ≤ s'.asked ∧
    ((rc = ENOMEM ∧ WktRefused mem s s') ∨ (Granted mem s s' ∧ ∃ b', r = .err rc b' ∧ Rel ex s' b'))
  | .ub, r => r = .ub

def Sim {α : Type} (mem : Nat → Bool) (x : M OWkt α) (y : M WktW α) : Prop :=
  ∀ ex s b, Inv s → Rel ex s b → Good mem ex s (x s) (y b)

theorem Good.after {α : Type} {ex : Prop} {s s' : OWkt} (h : Granted mem s s') {x : Res OWkt α} {y : Res WktW α} (hg : Good mem ex s' x y) :
    Good mem ex s x y := by
  cases x with
  | ok a s'' =>
    obtain ⟨b', h1, h2, h3, h4⟩ := hg
    exact ⟨b', h1, h2, h3, h.trans h4⟩
  | err rc s'' =>
    obtain ⟨h1, h2, h3⟩ := hg
    refine ⟨h1, Nat.le_trans h.1 h2, ?_⟩
    rcases h3 with ⟨e, k, k1, k2, k3⟩ | ⟨e, b', hb⟩
    · exact Or.inl ⟨e, k, Nat.le_trans h.1 k1, k2, k3⟩
    · exact Or.inr ⟨h.trans e, b', hb⟩
  | ub => exact hg

theorem Sim.bind {α β : Type} {x : M OWkt α} {y : M WktW α} {f : α → M OWkt β} {g : α → M WktW β} (h : Sim mem x y)
    (hf : ∀ a, Sim mem (f a) (g a)) : Sim mem (x >>= f) (y >>= g) := by
  intro ex s b hi hr
  have h1 := h ex s b hi hr
  rw [M.bind_run, M.bind_run]
  revert h1
  cases x s with
  | ok a s' =>
    rintro ⟨b', e, i', r', g'⟩
    rw [e]
    exact Good.after g' (hf a ex s' b' i' r')
  | err rc s' =>
    rintro ⟨h1, h2, h3⟩
    refine ⟨h1, h2, ?_⟩
    rcases h3 with h3 | ⟨e, b', hb, r'⟩
    · exact Or.inl h3
    · rw [hb]; exact Or.inr ⟨e, b', rfl, r'⟩
  | ub =>
    intro h1
    have h2 : y b = .ub := h1
    rw [h2]
    rfl

theorem Sim.get {β : Type} {f : OWkt → M OWkt β} {g : WktW → M WktW β}
    (h : ∀ ex s b, Inv s → Rel ex s b → Good mem ex s (f s s) (g b b)) : Sim mem (M.get >>= f) (M.get >>= g) :=
  fun ex s b hi hr => h ex s b hi hr

theorem Sim.pure {α : Type} (a : α) : Sim mem (pure a) (pure a) :=
  fun _ s b hi hr => ⟨b, rfl, hi, hr, Granted.refl s⟩

theorem Sim.fail {α : Type} (rc : Code) : Sim mem (M.fail rc : M OWkt α) (M.fail rc) :=
  fun _ s b hi hr => ⟨hi, Nat.le_refl _, Or.inr ⟨Granted.refl s, b, rfl, hr⟩⟩

theorem Sim.entry (i : Nat) : Sim mem (levelEntry i) (levelEntry i) := by
  intro ex s b hi hr
  unfold levelEntry
  by_cases h : i < 32
  · rw [if_pos h, if_pos h]; exact ⟨b, rfl, hi, hr, Granted.refl s⟩
  · rw [if_neg h, if_neg h]; rfl

def mapState {σ τ α : Type} (f : σ → τ) : Res σ α → Res τ α
  | .ok a s => .ok a (f s)
  | .err rc s => .err rc (f s)
  | .ub => .ub

/-- Neither looks at the bitmap nor changes it. -/
def Blind {α : Type} (f : M WktW α) : Prop :=
  ∀ w v, f { w with validity := v } = mapState (fun w' => { w' with validity := v }) (f w)

theorem Blind.keeps {α : Type} {f : M WktW α} (hb : Blind f) (w : WktW) : match f w with
    | .ok _ w' => w'.validity = w.validity
    | .err _ w' => w'.validity = w.validity
    | .ub => True := by
  have h := hb w w.validity
  have e : { w with validity := w.validity } = w := rfl
  rw [e] at h
  revert h
  cases f w with
  | ok a w' => intro h; simp only [mapState, Res.ok.injEq, true_and] at h; rw [h]
  | err rc w' => intro h; simp only [mapState, Res.err.injEq, true_and] at h; rw [h]
  | ub => intro _; trivial

theorem Blind.bind {α β : Type} {x : M WktW α} {f : α → M WktW β} (hx : Blind x) (hf : ∀ a, Blind (f a)) : Blind (x >>= f) := by
  intro w v
  rw [M.bind_run, M.bind_run, hx w v]
  cases x w with
  | ok a w' => exact hf a w' v
  | err rc w' => rfl
  | ub => rfl

theorem Sim.lift {α : Type} {f : M WktW α} (hb : Blind f) : Sim mem (lift f) f := by
  intro ex s b hi hr
  have hc := hb s.w b.validity
  rw [← hr.like] at hc
  have hs := hb.keeps s.w
  rw [hc]
  unfold TOom.lift
  cases hf : f s.w with
  | ok a w' =>
    rw [hf] at hs
    have hv : w'.validity = s.w.validity := hs
    refine ⟨_, rfl, ⟨by rw [hv]; exact hi.bits, by rw [hv]; exact hi.noBits⟩, ⟨rfl, ?_, ?_⟩, Granted.same rfl⟩
    · show b.validity.isSome = w'.validity.isSome
      rw [hv]; exact hr.some
    · intro h
      obtain ⟨e1, e2⟩ := hr.exact h
      refine ⟨?_, by rw [hv]; exact e2⟩
      show { w' with validity := b.validity } = w'
      rw [e1, ← hv]
  | err rc w' =>
    rw [hf] at hs
    have hv : w'.validity = s.w.validity := hs
    refine ⟨⟨by rw [hv]; exact hi.bits, by rw [hv]; exact hi.noBits⟩, Nat.le_refl _, Or.inr ⟨Granted.same rfl, _, rfl, ⟨rfl, ?_, ?_⟩⟩⟩
    · show b.validity.isSome = w'.validity.isSome
      rw [hv]; exact hr.some
    · intro h
      obtain ⟨e1, e2⟩ := hr.exact h
      refine ⟨?_, by rw [hv]; exact e2⟩
      show { w' with validity := b.validity } = w'
      rw [e1, ← hv]
  | ub => rfl

theorem Sim.congr {α : Type} {x : M OWkt α} {f : M WktW α} (hb : Blind f) (hx : ∀ s, x s = TOom.lift f s) : Sim mem x f := by
  intro ex s b hi hr
  rw [hx]
  exact Sim.lift hb ex s b hi hr

theorem rel_set {ex : Prop} {s : OWkt} {b : WktW} (hr : Rel ex s b) (f : WktW → WktW) (hf : ∀ w v, f { w with validity := v } = { f w with validity := v })
    (hv : ∀ w, (f w).validity = w.validity) {s1 : OWkt} (h1 : s1.w = f s.w) (h2 : s1.sizeBits = s.sizeBits) : Rel ex s1 (f b) := by
  refine ⟨?_, ?_, ?_⟩
  · rw [h1, hv]
    conv => lhs; rw [hr.like]
    rw [hf]
  · rw [h1, hv, hv]; exact hr.some
  · intro h
    obtain ⟨e1, e2⟩ := hr.exact h
    rw [h1, h2, e1, hv]
    exact ⟨rfl, e2⟩

theorem rel_like {ex : Prop} {s : OWkt} {b : WktW} (hr : Rel ex s b) : b.values = s.w.values ∧ b.offsets = s.w.offsets ∧
    b.length = s.w.length ∧ b.cap = s.w.cap ∧ b.featIsNull = s.w.featIsNull ∧ b.geometryType = s.w.geometryType ∧
    b.i = s.w.i ∧ b.precision = s.w.precision ∧ b.flat = s.w.flat ∧ b.maxSize = s.w.maxSize ∧ b.featStart = s.w.featStart := by
  have := hr.like
  refine ⟨?_, ?_, ?_, ?_, ?_, ?_, ?_, ?_, ?_, ?_, ?_⟩ <;> rw [this]

theorem sim_reserve (n : Nat) : Sim mem (reserve mem n) (wktReserve n) := by
  intro ex s b hi hr
  have hl := rel_like hr
  have hc : b.values.length + n ≤ b.cap ↔ s.w.values.length + n ≤ s.w.cap := by rw [hl.1, hl.2.2.2.1]
  unfold reserve wktReserve
  by_cases h : s.w.values.length + n ≤ s.w.cap
  · rw [if_pos h, if_pos (hc.mpr h)]; exact ⟨b, rfl, hi, hr, Granted.refl s⟩
  · rw [if_neg h, if_neg (fun h' => h (hc.mp h'))]
    cases hm : mem s.asked with
    | true =>
      exact ⟨_, rfl, ⟨hi.bits, hi.noBits⟩, rel_set hr (fun w => { w with cap := growByFactor w.cap (w.values.length + n) }) (fun _ _ => rfl)
        (fun _ => rfl) (s1 := { s with asked := s.asked + 1, w := { s.w with cap := growByFactor s.w.cap (s.w.values.length + n) } }) rfl rfl,
        Granted.one rfl hm⟩
    | false => exact ⟨⟨hi.bits, hi.noBits⟩, Nat.le_succ _, Or.inl ⟨rfl, s.asked, Nat.le_refl _, Nat.lt_succ_self _, hm⟩⟩

theorem blind_unsafe (bs : List Byte) : Blind (wktUnsafe bs) := by
  intro w v
  unfold wktUnsafe
  by_cases h : w.values.length + bs.length ≤ w.cap
  · rw [if_pos h, if_pos h]; rfl
  · rw [if_neg h, if_neg h]; rfl

theorem blind_double (x : Dbl) : Blind (wktDouble print x) := by
  intro w v
  unfold wktDouble
  by_cases h : w.values.length + 40 ≤ w.cap
  · rw [if_pos h, if_pos h]; rfl
  · rw [if_neg h, if_neg h]; rfl

theorem blind_level : Blind wktCheckLevel := by
  intro w v
  unfold wktCheckLevel
  by_cases h : 0 ≤ w.level ∧ w.level ≤ 31
  · rw [if_pos h, if_pos h]; rfl
  · rw [if_neg h, if_neg h]; rfl

theorem blind_modify {f : WktW → WktW} (h : ∀ w v, f { w with validity := v } = { f w with validity := v }) : Blind (M.modify f) := by
  intro w v
  rw [M.modify_run, M.modify_run, h]
  rfl

theorem blind_entry (i : Nat) : Blind (levelEntry i) := by
  intro w v
  unfold levelEntry
  by_cases h : i < 32
  · rw [if_pos h, if_pos h]; rfl
  · rw [if_neg h, if_neg h]; rfl

theorem blind_pure {α : Type} (a : α) : Blind (pure a) := fun _ _ => rfl

theorem blind_outer (l : Nat) : Blind (wktOuter l) := by
  intro w v
  unfold wktOuter
  by_cases h : 0 < l
  · rw [if_pos h, if_pos h]
    exact Blind.bind (blind_entry _) (fun _ => blind_pure _) w v
  · rw [if_neg h, if_neg h]; rfl

theorem blind_open (l gt : Nat) : Blind (wktOpen l gt) :=
  Blind.bind (blind_entry _) fun _ => Blind.bind (blind_modify fun _ _ => rfl) fun _ => blind_modify fun _ _ => rfl

theorem blind_ordinates : ∀ xs : List Dbl, Blind (wktOrdinates print xs)
  | [] => blind_pure ()
  | _ :: xs => Blind.bind (blind_unsafe _) fun _ => Blind.bind (blind_double _) fun _ => blind_ordinates xs

theorem blind_coord : ∀ xs : List Dbl, Blind (wktCoord print xs)
  | [] => fun _ _ => rfl
  | _ :: xs => Blind.bind (blind_double _) fun _ => blind_ordinates xs

theorem sim_write (bs : List Byte) : Sim mem (write mem bs) (wktWrite bs) :=
  Sim.bind (sim_reserve _) fun _ => Sim.lift (blind_unsafe bs)

theorem sim_dims (d : Nat) : Sim mem (dims mem d) (wktDims d) := by
  unfold dims wktDims
  split
  · exact Sim.pure ()
  split
  · exact sim_write _
  split
  · exact sim_write _
  split
  · exact sim_write _
  · exact Sim.fail _

theorem sim_tag (gt d : Nat) : Sim mem (tag mem gt d) (wktTag gt d) := by
  unfold tag wktTag
  split
  · exact Sim.fail _
  · exact Sim.bind (sim_write _) fun _ => Sim.bind (sim_dims _) fun _ => sim_write _

theorem sim_before (l : Nat) {z : M OWkt Unit} {z' : M WktW Unit} (hz : Sim mem z z') : Sim mem (before mem l z) (wktBefore l z') := by
  refine Sim.bind (Sim.lift (blind_outer l)) fun n => ?_
  cases n with
  | none => exact hz
  | some n =>
    show Sim mem (if 0 < n then write mem (str ", ") else write mem (str "(")) (if 0 < n then wktWrite (str ", ") else wktWrite (str "("))
    split <;> exact sim_write _

theorem sim_level {d : Int} : Sim mem (lift (M.modify fun s : WktW => { s with level := s.level + d })) (M.modify fun s : WktW => { s with level := s.level + d }) :=
  Sim.lift (blind_modify fun _ _ => rfl)

theorem sim_down : Sim mem (lift (M.modify fun s : WktW => { s with level := s.level - 1 })) (M.modify fun s : WktW => { s with level := s.level - 1 }) :=
  Sim.lift (blind_modify fun _ _ => rfl)

theorem sim_geomStart (gt d : Nat) : Sim mem (geomStart mem gt d) (wktGeomStart gt d) := by
  unfold geomStart wktGeomStart
  refine Sim.bind sim_level fun _ => Sim.bind (Sim.lift blind_level) fun l => Sim.bind (sim_before l (Sim.pure ())) fun _ => Sim.get fun ex s b hi hr => ?_
  rw [(rel_like hr).2.2.2.2.2.1]
  refine Sim.bind ?_ (fun _ => Sim.lift (blind_open l gt)) ex s b hi hr
  split
  · exact sim_tag gt d
  · exact Sim.pure ()

theorem sim_ringStart : Sim mem (ringStart mem) wktRingStart := by
  unfold ringStart wktRingStart
  exact Sim.bind sim_level fun _ => Sim.bind (Sim.lift blind_level) fun l => Sim.bind (sim_before l (sim_write _)) fun _ => Sim.lift (blind_open l 0)

theorem sim_more (n : Nat) : ∀ cs : List (List Dbl), Sim mem (more print mem n cs) (wktMore print n cs)
  | [] => Sim.pure ()
  | c :: cs => by
    intro ex s b hi hr
    have hl := rel_like hr
    have he : b.limitReached = s.w.limitReached := by
      unfold WktW.limitReached
      rw [hl.1, hl.2.2.2.2.2.2.2.2.2.1, hl.2.2.2.2.2.2.2.2.2.2]
    unfold more wktMore
    rw [he]
    by_cases h : s.w.limitReached = true
    · rw [if_pos h, if_pos h]
      exact ⟨hi, Nat.le_refl _, Or.inr ⟨Granted.refl s, b, rfl, hr⟩⟩
    · rw [if_neg h, if_neg h]
      exact Sim.bind (sim_reserve _) (fun _ => Sim.bind (Sim.lift (blind_unsafe _)) fun _ => Sim.bind (Sim.lift (blind_coord c)) fun _ => sim_more n cs)
        ex s b hi hr

theorem parens_like {ex : Prop} {s : OWkt} {b : WktW} (hr : Rel ex s b) (l : Nat) : wktParens l b = wktParens l s.w := by
  have hl := rel_like hr
  unfold wktParens
  rw [hl.2.2.2.2.2.1, hl.2.2.2.2.2.2.2.2.1]

theorem sim_coords (nv : Nat) (cs : List (List Dbl)) : Sim mem (coordsCb print mem nv cs) (wktCoords print nv cs) := by
  unfold coordsCb wktCoords
  cases cs with
  | nil => exact Sim.pure ()
  | cons c rest =>
    refine Sim.bind (Sim.lift blind_level) fun l => Sim.get fun ex s b hi hr => ?_
    have hl := rel_like hr
    rw [hl.2.2.2.2.2.2.1, hl.2.2.2.2.2.2.2.1, parens_like hr]
    refine Sim.bind (sim_reserve _) (fun _ => Sim.bind (Sim.entry l) fun _ => Sim.bind ?_ fun _ => Sim.bind (sim_reserve _) fun _ =>
      Sim.bind (Sim.lift (blind_coord c)) fun _ => Sim.bind (sim_more _ rest) fun _ => Sim.lift (blind_modify fun _ _ => rfl)) ex s b hi hr
    split
    · exact Sim.lift (blind_unsafe _)
    split
    · exact Sim.lift (blind_unsafe _)
    · exact Sim.pure ()

theorem sim_ringEnd : Sim mem (ringEnd mem) wktRingEnd := by
  unfold ringEnd wktRingEnd
  refine Sim.bind (Sim.lift blind_level) fun l => Sim.bind (Sim.entry l) fun _ => Sim.get fun ex s b hi hr => ?_
  rw [(rel_like hr).2.2.2.2.2.2.1]
  refine Sim.bind sim_down (fun _ => ?_) ex s b hi hr
  split <;> exact sim_write _

theorem sim_geomEnd : Sim mem (geomEnd mem) wktGeomEnd := by
  unfold geomEnd wktGeomEnd
  refine Sim.bind (Sim.lift blind_level) fun l => Sim.bind (Sim.entry l) fun _ => Sim.get fun ex s b hi hr => ?_
  rw [(rel_like hr).2.2.2.2.2.2.1, parens_like hr]
  refine Sim.bind sim_down (fun _ => ?_) ex s b hi hr
  split
  · exact sim_write _
  split
  · exact sim_write _
  · exact Sim.pure ()

theorem sim_nullFeat : Sim mem (lift wktNullFeat) wktNullFeat := Sim.lift (blind_modify fun _ _ => rfl)

theorem sim_offsets (v : Int) : Sim mem (offsetsAppend mem v) (M.modify fun w => { w with offsets := w.offsets ++ [v] }) := by
  intro ex s b hi hr
  have hrel := fun (s1 : OWkt) => rel_set hr (fun w => { w with offsets := w.offsets ++ [v] }) (fun _ _ => rfl) (fun _ => rfl) (s1 := s1)
  unfold offsetsAppend
  split
  · exact ⟨_, rfl, ⟨hi.bits, hi.noBits⟩, hrel _ rfl rfl, Granted.same rfl⟩
  · cases hm : mem s.asked with
    | true => exact ⟨_, rfl, ⟨hi.bits, hi.noBits⟩, hrel _ rfl rfl, Granted.one rfl hm⟩
    | false => exact ⟨⟨hi.bits, hi.noBits⟩, Nat.le_succ _, Or.inl ⟨rfl, s.asked, Nat.le_refl _, Nat.lt_succ_self _, hm⟩⟩

theorem sim_featStart : Sim mem (featStart mem) wktFeatStart := by
  intro ex s b hi hr
  have hl := rel_like hr
  have hlen : b.values.length = s.w.values.length := by rw [hl.1]
  have hi' : Inv { s with w := { s.w with level := -1, length := s.w.length + 1, featIsNull := false, featStart := s.w.values.length } } :=
    ⟨hi.bits, hi.noBits⟩
  have hr' : Rel ex { s with w := { s.w with level := -1, length := s.w.length + 1, featIsNull := false, featStart := s.w.values.length } }
      { b with level := -1, length := b.length + 1, featIsNull := false, featStart := b.values.length } :=
    rel_set hr (fun w => { w with level := -1, length := w.length + 1, featIsNull := false, featStart := w.values.length }) (fun _ _ => rfl) (fun _ => rfl) rfl rfl
  unfold featStart wktFeatStart
  simp only []
  by_cases h : s.w.values.length > 2147483647
  · rw [if_pos h, if_pos (by rw [hlen]; exact h)]
    exact ⟨hi', Nat.le_refl _, Or.inr ⟨Granted.same rfl, _, rfl, hr'⟩⟩
  · rw [if_neg h, if_neg (by rw [hlen]; exact h)]
    have := sim_offsets (mem := mem) (s.w.values.length : Int) ex _ _ hi' hr'
    rw [M.modify_run] at this
    rw [hlen]
    rw [hlen] at this
    exact Good.after (Granted.same rfl) this

/-- Appending to a bitmap that is there. -/
theorem bits_there {s : OWkt} {l : List Bool} (hi : Inv s) (hl : s.w.validity = some l) (b : Bool) :
    (∃ s', bitsAppend mem junk b s = .ok () s' ∧ Inv s' ∧ Granted mem s s' ∧ s'.w = { s.w with validity := some (l ++ [b]) }) ∨
    (∃ s', bitsAppend mem junk b s = .err ENOMEM s' ∧ Inv s' ∧ s.asked ≤ s'.asked ∧ WktRefused mem s s') := by
  obtain ⟨h1, h2, h3⟩ := hi.bits l hl
  unfold bitsAppend bitsReserve
  rw [M.bind_run]
  simp only []
  by_cases h : (s.sizeBits + 1 + 7) / 8 ≤ s.bitsCap
  · rw [if_pos h]
    simp only [bitsUnsafe, hl]
    rw [if_pos h]
    refine Or.inl ⟨_, rfl, ⟨?_, fun h => (by cases h)⟩, Granted.same rfl, rfl⟩
    intro l' e
    cases e
    exact ⟨by simp [h1], h, h3⟩
  · rw [if_neg h]
    cases hm : mem s.asked with
    | true =>
      simp only [if_true, bitsUnsafe, hl, Option.getD_some]
      have hg := growByFactor_ge s.bitsCap ((s.sizeBits + 1 + 7) / 8)
      rw [if_pos hg]
      refine Or.inl ⟨_, rfl, ⟨?_, fun h => (by cases h)⟩, Granted.one rfl hm, rfl⟩
      intro l' e
      cases e
      refine ⟨by simp [h1], hg, ?_⟩
      show 0 < growByFactor s.bitsCap ((s.sizeBits + 1 + 7) / 8)
      omega
    | false =>
      exact Or.inr ⟨_, rfl, ⟨fun l h => (by cases h), fun _ => rfl⟩, Nat.le_succ _, s.asked, Nat.le_refl _, Nat.lt_succ_self _, hm⟩

/-- What a null does to the bitmap and its count, without refusals. -/
def refNull : M WktW Unit := fun b =>
  match bitsAppendNull b.validity b.length with
  | none => .ub
  | some l => .ok () { b with validity := some l, nullCount := b.nullCount + 1 }

/-- The bitmap before the null itself, without refusals. -/
def refBegin : M WktW Unit := fun b =>
  match b.validity with
  | none => if b.length = 0 then .ub else .ok () { b with validity := some (List.replicate (b.length - 1) true) }
  | some _ => .ok () b

theorem rel_none {ex : Prop} {s : OWkt} {b : WktW} (hr : Rel ex s b) (hb : s.w.validity = none) : b.validity = none := by
  have hsome := hr.some
  cases hq : b.validity with
  | none => rfl
  | some x => rw [hq, hb] at hsome; cases hsome

theorem rel_some {ex : Prop} {s : OWkt} {b : WktW} {l : List Bool} (hr : Rel ex s b) (hb : s.w.validity = some l) : ∃ l', b.validity = some l' :=
  Option.isSome_iff_exists.mp (by rw [hr.some, hb]; rfl)

theorem good_begin {ex : Prop} {s : OWkt} {b : WktW} (hi : Inv s) (hr : Rel ex s b) :
    Good mem ex s (bitsBegin mem junk s) (refBegin b) ∧ ∀ s', bitsBegin mem junk s = .ok () s' → s'.w.validity.isSome = true := by
  have hv := rel_like hr
  unfold bitsBegin refBegin
  cases hb : s.w.validity with
  | some l =>
    obtain ⟨l', hl'⟩ := rel_some hr hb
    rw [hl']
    simp only [Option.isNone_some, Bool.false_eq_true, if_false]
    refine ⟨⟨b, rfl, hi, hr, Granted.refl s⟩, ?_⟩
    intro s' e
    cases e
    rw [hb]; rfl
  | none =>
    have hbn := rel_none hr hb
    rw [hbn, hv.2.2.1]
    simp only [Option.isNone_none, if_true]
    by_cases h0 : s.w.length = 0
    · rw [if_pos h0, if_pos h0]
      exact ⟨rfl, fun s' e => by cases e⟩
    · rw [if_neg h0, if_neg h0]
      have hcap := hi.noBits hb
      have hneed : ¬ (s.sizeBits + s.w.length + 7) / 8 ≤ s.bitsCap := by rw [hcap]; omega
      unfold bitsReserve
      rw [if_neg hneed]
      cases hm : mem s.asked with
      | false =>
        simp only [Bool.false_eq_true, if_false]
        exact ⟨⟨⟨fun l h => (by cases h), fun _ => rfl⟩, Nat.le_succ _, Or.inl ⟨rfl, s.asked, Nat.le_refl _, Nat.lt_succ_self _, hm⟩⟩,
          fun s' e => by cases e⟩
      | true =>
        have hg := growByFactor_ge s.bitsCap ((s.sizeBits + s.w.length + 7) / 8)
        simp only [if_true, hb, Option.getD_none, bitsUnsafe]
        rw [if_pos (by omega)]
        refine ⟨⟨_, rfl, ⟨?_, fun h => (by cases h)⟩, ⟨?_, rfl, ?_⟩, Granted.one rfl hm⟩, ?_⟩
        · intro l e
          cases e
          refine ⟨by simp, ?_, ?_⟩
          · show (s.sizeBits + (s.w.length - 1) + 7) / 8 ≤ growByFactor s.bitsCap ((s.sizeBits + s.w.length + 7) / 8)
            omega
          · show 0 < growByFactor s.bitsCap ((s.sizeBits + s.w.length + 7) / 8)
            omega
        · rw [hr.like]
        · intro h
          obtain ⟨e1, e2⟩ := hr.exact h
          refine ⟨?_, fun h => (by cases h)⟩
          rw [e1, e2 hb]
          rfl
        · intro s' e
          cases e
          rfl

theorem sim_bitsNull : Sim mem (bitsNull mem junk) refNull := by
  intro ex s b hi hr
  obtain ⟨hg, hs⟩ := good_begin (mem := mem) (junk := junk) hi hr
  have hy : refNull b = (refBegin >>= fun _ => (M.modify fun b : WktW => { b with nullCount := b.nullCount + 1 }) >>= fun _ =>
      (M.modify fun b : WktW => { b with validity := b.validity.map (· ++ [false]) }) : M WktW Unit) b := by
    unfold refNull refBegin bitsAppendNull
    rw [M.bind_run]
    cases hb : b.validity with
    | none =>
      simp only []
      by_cases h0 : b.length = 0
      · rw [if_pos h0, if_pos h0]
      · rw [if_neg h0, if_neg h0]; rfl
    | some l =>
      simp only []
      rw [M.bind_run]
      simp only [M.modify_run, hb]
      rfl
  rw [hy]
  unfold bitsNull
  rw [M.bind_run, M.bind_run]
  revert hg hs
  cases bitsBegin mem junk s with
  | ub =>
    intro hg _
    have : refBegin b = .ub := hg
    rw [this]; rfl
  | err rc s' =>
    rintro ⟨h1, h2, h3⟩ _
    refine ⟨h1, h2, ?_⟩
    rcases h3 with h3 | ⟨e, b', hb, r'⟩
    · exact Or.inl h3
    · rw [hb]; exact Or.inr ⟨e, b', rfl, r'⟩
  | ok u s' =>
    rintro ⟨b', e, i', r', g'⟩ hs
    rw [e]
    obtain ⟨l, hl⟩ := Option.isSome_iff_exists.mp (hs s' rfl)
    obtain ⟨l', hl'⟩ := rel_some r' hl
    show Good mem ex s (bitsAppend mem junk false { s' with w := { s'.w with nullCount := s'.w.nullCount + 1 } })
      (.ok () { b' with nullCount := b'.nullCount + 1, validity := b'.validity.map (· ++ [false]) })
    have hi1 : Inv { s' with w := { s'.w with nullCount := s'.w.nullCount + 1 } } := ⟨i'.bits, i'.noBits⟩
    refine Good.after (g'.trans (Granted.same (b := { s' with w := { s'.w with nullCount := s'.w.nullCount + 1 } }) rfl)) ?_
    rcases bits_there (mem := mem) (junk := junk) hi1 hl false with ⟨s2, e2, i2, g2, w2⟩ | ⟨s2, e2, i2, a2, r2⟩
    · rw [e2]
      refine ⟨_, rfl, i2, ⟨?_, ?_, ?_⟩, g2⟩
      · rw [w2, r'.like]
      · rw [w2, hl']; rfl
      · intro h
        obtain ⟨x1, x2⟩ := r'.exact h
        rw [w2]
        refine ⟨?_, fun h => (by cases h)⟩
        rw [x1, hl]
        rfl
    · rw [e2]
      exact ⟨i2, a2, Or.inl ⟨rfl, r2⟩⟩

theorem sim_cut : Sim mem cut (fun s : WktW =>
    if 0 ≤ s.maxSize ∧ s.maxSize < (s.values.length : Int) - s.featStart then
      if s.featStart + s.maxSize < 0 then .ub
      else .ok () { s with values := s.values.take (s.featStart + s.maxSize).toNat }
    else .ok () s) := by
  refine Sim.congr (f := fun s : WktW =>
    if 0 ≤ s.maxSize ∧ s.maxSize < (s.values.length : Int) - s.featStart then
      if s.featStart + s.maxSize < 0 then .ub
      else .ok () { s with values := s.values.take (s.featStart + s.maxSize).toNat }
    else .ok () s) ?_ ?_
  · intro w v
    simp only []
    by_cases h1 : 0 ≤ w.maxSize ∧ w.maxSize < (w.values.length : Int) - w.featStart
    · rw [if_pos h1, if_pos h1]
      by_cases h2 : w.featStart + w.maxSize < 0
      · rw [if_pos h2, if_pos h2]; rfl
      · rw [if_neg h2, if_neg h2]; rfl
    · rw [if_neg h1, if_neg h1]; rfl
  · intro s
    unfold cut TOom.lift
    simp only []
    by_cases h1 : 0 ≤ s.w.maxSize ∧ s.w.maxSize < (s.w.values.length : Int) - s.w.featStart
    · rw [if_pos h1, if_pos h1]
      by_cases h2 : s.w.featStart + s.w.maxSize < 0
      · rw [if_pos h2, if_pos h2]
      · rw [if_neg h2, if_neg h2]
    · rw [if_neg h1, if_neg h1]

theorem featEnd_null {b : WktW} (h : b.featIsNull = true) : wktFeatEnd b = refNull b := by
  unfold wktFeatEnd refNull
  rw [if_pos h]
  cases bitsAppendNull b.validity b.length <;> rfl

theorem featEnd_bits {b : WktW} (h : ¬ b.featIsNull = true) {l : List Bool} (hl : b.validity = some l) :
    wktFeatEnd b = .ok () { b with validity := some (l ++ [true]) } := by
  unfold wktFeatEnd
  rw [if_neg h, hl]

theorem featEnd_none {b : WktW} (h : ¬ b.featIsNull = true) (hl : b.validity = none) :
    wktFeatEnd b =
      if 0 ≤ b.maxSize ∧ b.maxSize < (b.values.length : Int) - b.featStart then
        if b.featStart + b.maxSize < 0 then .ub
        else .ok () { b with values := b.values.take (b.featStart + b.maxSize).toNat }
      else .ok () b := by
  unfold wktFeatEnd
  rw [if_neg h]
  split
  · rename_i l hl'; rw [hl] at hl'; cases hl'
  · rfl

theorem sim_featEnd : Sim mem (featEnd mem junk) wktFeatEnd := by
  intro ex s b hi hr
  have hv := rel_like hr
  have hf := hv.2.2.2.2.1
  unfold featEnd
  by_cases h : s.w.featIsNull = true
  · rw [if_pos h, featEnd_null (hf.trans h)]
    exact sim_bitsNull (mem := mem) (junk := junk) ex s b hi hr
  · have h' : ¬ b.featIsNull = true := by rw [hf]; exact h
    rw [if_neg h]
    cases hb : s.w.validity with
    | some l =>
      obtain ⟨l', hl'⟩ := rel_some hr hb
      rw [featEnd_bits h' hl']
      simp only [Option.isSome_some, if_true]
      rcases bits_there (mem := mem) (junk := junk) hi hb true with ⟨s', e, i', g', w'⟩ | ⟨s', e, i', a', r'⟩
      · rw [e]
        refine ⟨_, rfl, i', ⟨?_, ?_, ?_⟩, g'⟩
        · rw [w', hr.like]
        · rw [w']; rfl
        · intro hx
          obtain ⟨e1, e2⟩ := hr.exact hx
          rw [w']
          refine ⟨?_, fun h => (by cases h)⟩
          rw [e1, hb] at hl'
          cases hl'
          rw [e1]
      · rw [e]
        exact ⟨i', a', Or.inl ⟨rfl, r'⟩⟩
    | none =>
      rw [featEnd_none h' (rel_none hr hb)]
      simp only [Option.isSome_none, Bool.false_eq_true, if_false]
      exact sim_cut ex s b hi hr

theorem sim_handler (e : Event) : Sim mem (handler print mem junk e) (wktHandler print e) := by
  cases e with
  | featStart => exact sim_featStart
  | nullFeat => exact sim_nullFeat
  | geomStart gt d => exact sim_geomStart gt d
  | ringStart => exact sim_ringStart
  | coords nv cs => exact sim_coords nv cs
  | ringEnd => exact sim_ringEnd
  | geomEnd => exact sim_geomEnd
  | featEnd => exact sim_featEnd

theorem sim_feed : ∀ (t : List Event), Sim mem (feed (handler print mem junk) t) (feed (wktHandler print) t)
  | [] => Sim.pure ()
  | e :: t => by
    have : Sim mem (handler print mem junk e >>= fun _ => feed (handler print mem junk) t) (wktHandler print e >>= fun _ => feed (wktHandler print) t) :=
      Sim.bind (sim_handler e) fun _ => sim_feed t
    rw [feed_bind, feed_bind]
    exact this

theorem sim_visit (t : List Event) : Sim mem (visitByFeature (handler print mem junk) (feed (handler print mem junk) t))
    (visitByFeature (wktHandler print) (feed (wktHandler print) t)) := by
  intro ex s b hi hr
  have h1 := sim_feed (print := print) (mem := mem) (junk := junk) t ex s b hi hr
  unfold visitByFeature
  revert h1
  cases feed (handler print mem junk) t s with
  | ok a s' =>
    rintro ⟨b', e, i', r', g'⟩
    rw [e]
    exact ⟨b', rfl, i', r', g'⟩
  | err rc s' =>
    rintro ⟨h1, h2, h3⟩
    rcases h3 with ⟨rfl, h3⟩ | ⟨e, b', hb, r'⟩
    · simp only []
      rw [if_neg (by decide)]
      exact ⟨h1, h2, Or.inl ⟨rfl, h3⟩⟩
    · rw [hb]
      simp only []
      by_cases hq : rc = EAGAIN
      · rw [if_pos hq, if_pos hq]
        exact Good.after e (sim_handler .featEnd ex s' b' h1 r')
      · rw [if_neg hq, if_neg hq]
        exact ⟨h1, h2, Or.inr ⟨e, b', rfl, r'⟩⟩
  | ub =>
    intro h1
    have h2 : feed (wktHandler print) t b = .ub := h1
    rw [h2]
    rfl

end Verif.TOom
