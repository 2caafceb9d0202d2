import Verif.Spec.KernelLife
/-!
# What calls on kernels do to memory
-/
namespace Verif.Life
open Verif

/-- The heap holds exactly these blocks (as a multiset). -/
def Own (h : Heap) (l : List Nat) : Prop := (∀ a, l.count a = if h.live a then 1 else 0) ∧ h.Sound

/-- Equal as multisets. -/
def Eqv (l l' : List Nat) : Prop := ∀ a, l.count a = l'.count a

theorem Own.eqv {h : Heap} {l l' : List Nat} (ho : Own h l) (he : Eqv l l') : Own h l' := ⟨fun a => by rw [← he a]; exact ho.1 a, ho.2⟩

/-- From a heap with the blocks `pre` (and any others) the computation goes to one with blocks as `Q` says (and the same others). -/
def Does {α : Type} (x : H α) (pre : List Nat) (Q : α → List Nat → Prop) : Prop :=
  ∀ h rest, Own h (pre ++ rest) → ∃ a h' l, x h = some (a, h') ∧ Own h' (l ++ rest) ∧ Q a l

theorem Eqv.app {a b c : List Nat} (h : Eqv a b) : Eqv (a ++ c) (b ++ c) := fun x => by rw [List.count_append, List.count_append, h x]

theorem Does.conseq {α : Type} {x : H α} {pre pre' : List Nat} {Q Q' : α → List Nat → Prop} (h : Does x pre Q) (hp : Eqv pre' pre)
    (hq : ∀ a l, Q a l → ∃ l', Eqv l l' ∧ Q' a l') : Does x pre' Q' := by
  intro h0 rest ho
  obtain ⟨a, h', l, e, o, q⟩ := h h0 rest (ho.eqv hp.app)
  obtain ⟨l', e', q'⟩ := hq a l q
  exact ⟨a, h', l', e, o.eqv e'.app, q'⟩

theorem Does.pure {α : Type} {a : α} {pre : List Nat} {Q : α → List Nat → Prop} {l : List Nat} (he : Eqv pre l) (hq : Q a l) :
    Does (pure a : H α) pre Q := fun h rest ho => ⟨a, h, l, rfl, ho.eqv he.app, hq⟩

/-- One step, with the blocks `R` set aside. -/
theorem Does.step {α β : Type} {x : H α} {f : α → H β} {p pre R : List Nat} {P : α → List Nat → Prop} {Q : β → List Nat → Prop}
    (hx : Does x p P) (he : Eqv pre (p ++ R)) (hf : ∀ a l, P a l → Does (f a) (l ++ R) Q) : Does (x >>= f) pre Q := by
  intro h rest ho
  obtain ⟨a, h', l, e, o, q⟩ := hx h (R ++ rest) (ho.eqv fun b => by have := he b; simp only [List.count_append] at this ⊢; omega)
  obtain ⟨b, h'', l', e', o', q'⟩ := hf a l q h' rest (o.eqv fun b => by simp only [List.count_append]; omega)
  refine ⟨b, h'', l', ?_, o', q'⟩
  show (x h).bind _ = _
  rw [e]
  exact e'

/-- The same, when the first computation needs all that is there. -/
theorem Does.bind {α β : Type} {x : H α} {f : α → H β} {pre : List Nat} {P : α → List Nat → Prop} {Q : β → List Nat → Prop}
    (hx : Does x pre P) (hf : ∀ a l, P a l → Does (f a) l Q) : Does (x >>= f) pre Q :=
  hx.step (R := []) (fun a => by simp) fun a l h => by rw [List.append_nil]; exact hf a l h

theorem does_malloc : Does malloc [] fun a l => l = [a] := by
  intro h rest ho
  refine ⟨h.next, _, [h.next], rfl, ⟨fun a => ?_, fun a ha => ?_⟩, rfl⟩
  · have := ho.1 a
    simp only [List.nil_append] at this
    simp only [List.cons_append, List.nil_append, List.count_cons, this]
    by_cases e : a = h.next
    · subst e
      have hn : h.live h.next = false := by
        cases hl : h.live h.next with
        | false => rfl
        | true => exact absurd (ho.2 _ hl) (Nat.lt_irrefl _)
      simp [hn]
    · have e1 : (h.next == a) = false := by simpa using fun h => e h.symm
      have e2 : (a == h.next) = false := by simpa using e
      simp [e1, e2]
  · simp only [Bool.or_eq_true, beq_iff_eq] at ha
    rcases ha with rfl | ha
    · exact Nat.lt_succ_self _
    · exact Nat.lt_succ_of_lt (ho.2 a ha)

theorem does_free (a : Nat) : Does (free a) [a] fun _ l => l = [] := by
  intro h rest ho
  have ha : h.live a = true := by
    have := ho.1 a
    cases hl : h.live a with
    | true => rfl
    | false => rw [hl] at this; simp at this
  refine ⟨(), ⟨fun b => b != a && h.live b, h.next⟩, [], by unfold free; rw [if_pos ha], ⟨fun b => ?_, fun b hb => ?_⟩, rfl⟩
  · have := ho.1 b
    simp only [List.cons_append, List.nil_append, List.count_cons] at this
    rw [List.nil_append]
    by_cases e : b = a
    · subst e
      rw [ha] at this
      simp at this ⊢
      exact this
    · have e1 : (a == b) = false := by simpa using fun h => e h.symm
      have e2 : (b != a) = true := by simpa using e
      rw [e1] at this
      simpa [e2] using this
  · simp only [Bool.and_eq_true] at hb
    exact ho.2 b hb.2

/-- Comparing multisets of blocks. -/
macro "cnt" : tactic => `(tactic| (intro x; (try simp only [List.count_append, List.count_cons, List.count_nil, List.append_nil, List.nil_append, List.cons_append, Option.toList_none, Option.toList_some]); (try omega)))

theorem does_bufReset (b : Option Nat) : Does (bufReset b) b.toList fun _ l => l = [] := by
  cases b with
  | none => exact Does.pure (fun _ => rfl) rfl
  | some a => exact does_free a

theorem does_bufGrow (b : Option Nat) (g : Bool) : Does (bufGrow b g) b.toList fun b' l => l = b'.toList := by
  unfold bufGrow
  cases g with
  | false => exact Does.pure (fun _ => rfl) rfl
  | true =>
    refine (does_bufReset b).bind fun _ l hl => ?_
    subst hl
    refine does_malloc.bind fun a l hl => ?_
    subst hl
    exact Does.pure (fun _ => rfl) rfl

theorem does_growFrom (g : Nat → Bool) : ∀ (bs : List (Option Nat)) (i : Nat), Does (growFrom g i bs) (blocksOf bs) fun bs' l => l = blocksOf bs'
  | [], i => Does.pure (fun _ => rfl) rfl
  | b :: bs, i => by
    refine (does_bufGrow b (g i)).step (R := blocksOf bs) (fun _ => rfl) fun b' l hl => ?_
    subst hl
    refine (does_growFrom g bs (i + 1)).step (R := b'.toList) (by cnt) fun bs' l hl => ?_
    subst hl
    exact Does.pure (l := blocksOf (b' :: bs')) (by simp only [blocksOf]; cnt) rfl

theorem does_bufsFinalize : ∀ (bs : List (Option Nat)), Does (bufsFinalize bs) (blocksOf bs) fun bs' l => l = blocksOf bs'
  | [] => Does.pure (fun _ => rfl) rfl
  | b :: bs => by
    refine Does.step (x := bufFinalize b) (does_bufGrow b _) (R := blocksOf bs) (fun _ => rfl) fun b' l hl => ?_
    subst hl
    refine (does_bufsFinalize bs).step (R := b'.toList) (by cnt) fun bs' l hl => ?_
    subst hl
    exact Does.pure (l := blocksOf (b' :: bs')) (by simp only [blocksOf]; cnt) rfl

theorem does_bufsFinalizeTail : ∀ (bs : List (Option Nat)), Does (bufsFinalizeTail bs) (blocksOf bs) fun bs' l => l = blocksOf bs'
  | [] => Does.pure (fun _ => rfl) rfl
  | b :: bs => by
    refine (does_bufsFinalize bs).step (R := b.toList) (by simp only [blocksOf]; cnt) fun bs' l hl => ?_
    subst hl
    exact Does.pure (l := blocksOf (b :: bs')) (by simp only [blocksOf]; cnt) rfl

theorem does_bufsReset : ∀ (bs : List (Option Nat)), Does (bufsReset bs) (blocksOf bs) fun _ l => l = []
  | [] => Does.pure (fun _ => rfl) rfl
  | b :: bs => by
    refine (does_bufReset b).step (R := blocksOf bs) (fun _ => rfl) fun _ l hl => ?_
    subst hl
    exact does_bufsReset bs

theorem does_objRelease (o : Obj) : Does o.release o.blocks fun _ l => l = [] := by
  refine (does_bufsReset o.bufs).step (R := [o.self]) (by unfold Obj.blocks; cnt) fun _ l hl => ?_
  subst hl
  exact does_free o.self

theorem blocks_replicate (n : Nat) : blocksOf (List.replicate n none) = [] := by
  induction n with
  | zero => rfl
  | succ n ih => rw [List.replicate_succ]; exact ih

/-! ## Blocks of structures -/

def optBlocks {α : Type} (f : α → List Nat) : Option α → List Nat
  | none => []
  | some a => f a

def Serial.blocks (w : Serial) : List Nat := w.self :: (w.validity.toList ++ (w.offsets.toList ++ w.values.toList))
def Bld.blocks (b : Bld) : List Nat := b.self :: b.schema :: b.array :: blocksOf b.bufs
def Native.blocks (w : Native) : List Nat := w.self :: (w.bld.blocks ++ w.validity.toList)
def Inner.blocks : Inner → List Nat
  | .wkt s => s.blocks
  | .wkb s => s.blocks
  | .native s => s.blocks
def Writer.blocks (w : Writer) : List Nat := w.self :: w.inner.blocks
def WkbRd.blocks (w : WkbRd) : List Nat := w.self :: w.geom :: (w.nodes.toList ++ w.coords.toList)
def Reader.blocks (r : Reader) : List Nat := r.self :: (optBlocks WkbRd.blocks r.wkb ++ r.wkt.toList)
def Priv.blocks (p : Priv) : List Nat :=
  p.self :: (optBlocks Reader.blocks p.reader ++ (optBlocks Writer.blocks p.writer ++ (optBlocks Serial.blocks p.wkt ++ (blocksOf p.boxes ++ p.validity.toList))))
def Kernel.blocks (k : Kernel) : List Nat := optBlocks Priv.blocks k.priv

theorem does_resetOpt {α : Type} {reset : α → H Unit} {f : α → List Nat} (h : ∀ a, Does (reset a) (f a) fun _ l => l = []) (x : Option α) :
    Does (resetOpt reset x) (optBlocks f x) fun _ l => l = [] := by
  cases x with
  | none => exact Does.pure (fun _ => rfl) rfl
  | some a => exact h a

theorem does_serialInit : Does Serial.init [] fun w l => l = w.blocks := by
  refine does_malloc.bind fun a l hl => ?_
  subst hl
  exact Does.pure (fun _ => rfl) rfl

theorem does_serialVisit (g : Nat → Bool) (w : Serial) : Does (w.visit g) w.blocks fun w' l => l = w'.blocks := by
  refine (does_bufGrow w.validity (g 0)).step (R := w.self :: (w.offsets.toList ++ w.values.toList)) (by unfold Serial.blocks; cnt) fun v l hl => ?_
  subst hl
  refine (does_bufGrow w.offsets (g 1)).step (R := w.self :: (v.toList ++ w.values.toList)) (by cnt) fun o l hl => ?_
  subst hl
  refine (does_bufGrow w.values (g 2)).step (R := w.self :: (v.toList ++ o.toList)) (by cnt) fun d l hl => ?_
  subst hl
  exact Does.pure (l := Serial.blocks { w with validity := v, offsets := o, values := d }) (by unfold Serial.blocks; cnt) rfl

theorem does_serialFinish (f : Fin) (w : Serial) : Does (w.finish f) w.blocks fun r l => l = optBlocks Obj.blocks r.1.2 ++ r.2.blocks := by
  unfold Serial.finish
  by_cases h : f.tooLong = true
  · rw [if_pos h]; exact Does.pure (fun _ => rfl) rfl
  · rw [if_neg h]
    refine (does_bufGrow w.offsets _).step (R := w.self :: (w.validity.toList ++ w.values.toList)) (by unfold Serial.blocks; cnt) fun o l hl => ?_
    subst hl
    refine does_malloc.step (R := o.toList ++ w.self :: (w.validity.toList ++ w.values.toList)) (by cnt) fun a l hl => ?_
    subst hl
    refine Does.step (x := bufFinalize w.values) (does_bufGrow w.values _) (R := a :: (o.toList ++ w.self :: w.validity.toList)) (by cnt) fun d l hl => ?_
    subst hl
    exact Does.pure (by simp only [optBlocks, Obj.blocks, Serial.blocks, blocksOf]; cnt) rfl

theorem does_serialReset (w : Serial) : Does w.reset w.blocks fun _ l => l = [] := by
  refine (does_bufReset w.validity).step (R := w.self :: (w.offsets.toList ++ w.values.toList)) (by unfold Serial.blocks; cnt) fun _ l hl => ?_
  subst hl
  refine (does_bufReset w.offsets).step (R := w.self :: w.values.toList) (by cnt) fun _ l hl => ?_
  subst hl
  refine (does_bufReset w.values).step (R := [w.self]) (by cnt) fun _ l hl => ?_
  subst hl
  exact does_free w.self

theorem does_bldInit (n : Nat) : Does (Bld.init n) [] fun b l => l = b.blocks := by
  refine does_malloc.bind fun s l hl => ?_
  subst hl
  refine does_malloc.step (R := [s]) (by cnt) fun c l hl => ?_
  subst hl
  refine does_malloc.step (R := [c, s]) (by cnt) fun a l hl => ?_
  subst hl
  exact Does.pure (by simp only [Bld.blocks, blocks_replicate]; cnt) rfl

theorem does_bldFinish (f : Fin) (b : Bld) : Does (b.finish f) b.blocks fun r l => l = optBlocks Obj.blocks r.1.2 ++ r.2.blocks := by
  refine (does_bufsFinalizeTail b.bufs).step (R := [b.self, b.schema, b.array]) (by unfold Bld.blocks; cnt) fun bufs l hl => ?_
  subst hl
  by_cases h : f.valid ≠ 0
  · rw [if_pos h]
    exact Does.pure (by simp only [optBlocks, Bld.blocks]; cnt) rfl
  · rw [if_neg h]
    refine does_malloc.step (R := blocksOf bufs ++ [b.self, b.schema, b.array]) (by cnt) fun a l hl => ?_
    subst hl
    exact Does.pure (by simp only [optBlocks, Bld.blocks, Obj.blocks, blocks_replicate]; cnt) rfl

theorem does_bldReset (b : Bld) : Does b.reset b.blocks fun _ l => l = [] := by
  refine (does_free b.schema).step (R := b.self :: b.array :: blocksOf b.bufs) (by unfold Bld.blocks; cnt) fun _ l hl => ?_
  subst hl
  refine (does_objRelease ⟨b.array, b.bufs⟩).step (R := [b.self]) (by simp only [Obj.blocks]; cnt) fun _ l hl => ?_
  subst hl
  exact does_free b.self

/-- What a failed or successful initialisation leaves. -/
def exBlocks {α : Type} (f : α → List Nat) : Except Code α → List Nat
  | .error _ => []
  | .ok a => f a

def NonZero {α : Type} (r : Except Code α) : Prop := ∀ rc, r = .error rc → rc ≠ 0

theorem does_nativeInit (n : Nat) (rc : Code) (g : Nat → Bool) :
    Does (Native.init n rc g) [] fun r l => l = exBlocks Native.blocks r ∧ NonZero r := by
  refine does_malloc.bind fun a l hl => ?_
  subst hl
  by_cases h : rc ≠ 0
  · rw [if_pos h]
    refine (does_free a).bind fun _ l hl => ?_
    subst hl
    exact Does.pure (fun _ => rfl) ⟨rfl, fun rc' h' => by cases h'; exact h⟩
  · rw [if_neg h]
    refine (does_bldInit n).step (R := [a]) (by cnt) fun b l hl => ?_
    subst hl
    refine Does.step (x := bufsGrow g b.bufs) (does_growFrom g b.bufs 0) (R := [b.self, b.schema, b.array, a]) (by unfold Bld.blocks; cnt) fun bufs l hl => ?_
    subst hl
    exact Does.pure (by simp only [exBlocks, Native.blocks, Bld.blocks]; cnt) ⟨rfl, fun rc' h' => by cases h'⟩

theorem does_nativeVisit (g : Nat → Bool) (w : Native) : Does (w.visit g) w.blocks fun w' l => l = w'.blocks := by
  refine (does_bufGrow w.validity (g 0)).step (R := w.self :: w.bld.blocks) (by unfold Native.blocks; cnt) fun v l hl => ?_
  subst hl
  refine (does_growFrom g w.bld.bufs 1).step (R := [w.bld.self, w.bld.schema, w.bld.array, w.self] ++ v.toList) (by unfold Bld.blocks; cnt) fun bufs l hl => ?_
  subst hl
  exact Does.pure (by simp only [Native.blocks, Bld.blocks]; cnt) rfl

theorem does_nativeFinish (f : Fin) (w : Native) : Does (w.finish f) w.blocks fun r l => l = optBlocks Obj.blocks r.1.2 ++ r.2.blocks := by
  refine Does.step (x := bufsGrow f.grows w.bld.bufs) (does_growFrom f.grows w.bld.bufs 0) (R := [w.bld.self, w.bld.schema, w.bld.array, w.self] ++ w.validity.toList)
    (by unfold Native.blocks Bld.blocks; cnt) fun bufs l hl => ?_
  subst hl
  refine (does_bldFinish f { w.bld with bufs := bufs }).step (R := w.self :: w.validity.toList) (by simp only [Bld.blocks]; cnt) fun r l hl => ?_
  subst hl
  obtain ⟨⟨rc, o⟩, b⟩ := r
  cases o with
  | none => exact Does.pure (by simp only [optBlocks, Native.blocks]; cnt) rfl
  | some o =>
    refine Does.step (x := bufsGrow f.grows b.bufs) (does_growFrom f.grows b.bufs 0) (R := o.blocks ++ [b.self, b.schema, b.array, w.self] ++ w.validity.toList)
      (by simp only [optBlocks, Bld.blocks]; cnt) fun bufs' l hl => ?_
    subst hl
    exact Does.pure (by simp only [optBlocks, Native.blocks, Bld.blocks]; cnt) rfl

theorem does_nativeReset (w : Native) : Does w.reset w.blocks fun _ l => l = [] := by
  refine (does_bldReset w.bld).step (R := w.self :: w.validity.toList) (by unfold Native.blocks; cnt) fun _ l hl => ?_
  subst hl
  refine (does_bufReset w.validity).step (R := [w.self]) (by cnt) fun _ l hl => ?_
  subst hl
  exact does_free w.self

theorem does_innerReset (i : Inner) : Does i.reset i.blocks fun _ l => l = [] := by
  cases i with
  | wkt s => exact does_serialReset s
  | wkb s => exact does_serialReset s
  | native s => exact does_nativeReset s

theorem does_writerReset (w : Writer) : Does w.reset w.blocks fun _ l => l = [] := by
  refine (does_innerReset w.inner).step (R := [w.self]) (by unfold Writer.blocks; cnt) fun _ l hl => ?_
  subst hl
  exact does_free w.self

/-- Making a writer. One block is lost if the type is not supported. -/
theorem does_writerInit (t : OutType) (g : Nat → Bool) :
    Does (Writer.init t g) [] fun r l => ∃ lost, l = exBlocks Writer.blocks r ++ lost ∧ (t ≠ .large → lost = []) ∧ NonZero r ∧
      (t = .large → lost ≠ []) := by
  refine does_malloc.bind fun a l hl => ?_
  subst hl
  cases t with
  | large => exact Does.pure (fun _ => rfl) ⟨[a], rfl, fun h => absurd rfl h, (fun rc h => by cases h; decide), fun _ h => by cases h⟩
  | wkt =>
    refine does_serialInit.step (R := [a]) (by cnt) fun w l hl => ?_
    subst hl
    exact Does.pure (l := Writer.blocks ⟨a, .wkt w⟩ ++ []) (by simp only [Writer.blocks, Inner.blocks]; cnt) ⟨[], rfl, fun _ => rfl, (fun rc h => by cases h), fun h => by cases h⟩
  | wkb =>
    refine does_serialInit.step (R := [a]) (by cnt) fun w l hl => ?_
    subst hl
    exact Does.pure (l := Writer.blocks ⟨a, .wkb w⟩ ++ []) (by simp only [Writer.blocks, Inner.blocks]; cnt) ⟨[], rfl, fun _ => rfl, (fun rc h => by cases h), fun h => by cases h⟩
  | other n rc =>
    refine (does_nativeInit n rc g).step (R := [a]) (by cnt) fun r l hl => ?_
    obtain ⟨rfl, hz⟩ := hl
    cases r with
    | error rc' =>
      refine (does_free a).step (R := []) (by simp only [exBlocks]; cnt) fun _ l hl => ?_
      subst hl
      exact Does.pure (fun _ => rfl) ⟨[], rfl, fun _ => rfl, (fun rc h => by cases h; exact hz _ rfl), fun h => by cases h⟩
    | ok w => exact Does.pure (l := Writer.blocks ⟨a, .native w⟩ ++ []) (by simp only [exBlocks, Writer.blocks, Inner.blocks]; cnt) ⟨[], rfl, fun _ => rfl, (fun rc h => by cases h), fun h => by cases h⟩

theorem does_writerVisit (g : Nat → Bool) (w : Writer) : Does (w.visit g) w.blocks fun w' l => l = w'.blocks := by
  obtain ⟨a, i⟩ := w
  cases i with
  | wkt s =>
    refine (does_serialVisit g s).step (R := [a]) (by simp only [Writer.blocks, Inner.blocks]; cnt) fun s' l hl => ?_
    subst hl
    exact Does.pure (by simp only [Writer.blocks, Inner.blocks]; cnt) rfl
  | wkb s =>
    refine (does_serialVisit g s).step (R := [a]) (by simp only [Writer.blocks, Inner.blocks]; cnt) fun s' l hl => ?_
    subst hl
    exact Does.pure (by simp only [Writer.blocks, Inner.blocks]; cnt) rfl
  | native s =>
    refine (does_nativeVisit g s).step (R := [a]) (by simp only [Writer.blocks, Inner.blocks]; cnt) fun s' l hl => ?_
    subst hl
    exact Does.pure (by simp only [Writer.blocks, Inner.blocks]; cnt) rfl

theorem does_writerFinish (f : Fin) (w : Writer) : Does (w.finish f) w.blocks fun r l => l = optBlocks Obj.blocks r.1.2 ++ r.2.blocks := by
  obtain ⟨a, i⟩ := w
  cases i with
  | wkt s =>
    refine (does_serialFinish f s).step (R := [a]) (by simp only [Writer.blocks, Inner.blocks]; cnt) fun r l hl => ?_
    subst hl
    exact Does.pure (by simp only [Writer.blocks, Inner.blocks]; cnt) rfl
  | wkb s =>
    refine (does_serialFinish f s).step (R := [a]) (by simp only [Writer.blocks, Inner.blocks]; cnt) fun r l hl => ?_
    subst hl
    exact Does.pure (by simp only [Writer.blocks, Inner.blocks]; cnt) rfl
  | native s =>
    refine (does_nativeFinish f s).step (R := [a]) (by simp only [Writer.blocks, Inner.blocks]; cnt) fun r l hl => ?_
    subst hl
    exact Does.pure (by simp only [Writer.blocks, Inner.blocks]; cnt) rfl

theorem does_readerInit (p : Parser) (rc : Code) : Does (Reader.init p rc) [] fun r l => l = exBlocks Reader.blocks r ∧ NonZero r ∧ (rc = 0 → ∃ x, r = .ok x) := by
  refine does_malloc.bind fun a l hl => ?_
  subst hl
  by_cases h : rc ≠ 0
  · rw [if_pos h]
    refine (does_free a).bind fun _ l hl => ?_
    subst hl
    exact Does.pure (fun _ => rfl) ⟨rfl, (fun rc' h' => by cases h'; exact h), fun h' => absurd h' h⟩
  · rw [if_neg h]
    cases p with
    | none => exact Does.pure (fun _ => rfl) ⟨rfl, (fun rc' h' => by cases h'), fun _ => ⟨_, rfl⟩⟩
    | wkb =>
      refine does_malloc.step (R := [a]) (by cnt) fun s l hl => ?_
      subst hl
      refine does_malloc.step (R := [s, a]) (by cnt) fun g l hl => ?_
      subst hl
      exact Does.pure (by simp only [exBlocks, Reader.blocks, optBlocks, WkbRd.blocks]; cnt) ⟨rfl, (fun rc' h' => by cases h'), fun _ => ⟨_, rfl⟩⟩
    | wkt =>
      refine does_malloc.step (R := [a]) (by cnt) fun s l hl => ?_
      subst hl
      exact Does.pure (by simp only [exBlocks, Reader.blocks, optBlocks]; cnt) ⟨rfl, (fun rc' h' => by cases h'), fun _ => ⟨_, rfl⟩⟩

theorem does_readerVisit (g : Nat → Bool) (r : Reader) : Does (r.visit g) r.blocks fun r' l => l = r'.blocks := by
  obtain ⟨a, w, t⟩ := r
  cases w with
  | none => exact Does.pure (fun _ => rfl) rfl
  | some w =>
    refine (does_bufGrow w.nodes (g 0)).step (R := a :: w.self :: w.geom :: (w.coords.toList ++ t.toList))
      (by simp only [Reader.blocks, optBlocks, WkbRd.blocks]; cnt) fun n l hl => ?_
    subst hl
    refine (does_bufGrow w.coords (g 1)).step (R := a :: w.self :: w.geom :: (n.toList ++ t.toList)) (by cnt) fun c l hl => ?_
    subst hl
    exact Does.pure (by simp only [Reader.blocks, optBlocks, WkbRd.blocks]; cnt) rfl

theorem does_wkbRdReset (w : WkbRd) : Does w.reset w.blocks fun _ l => l = [] := by
  refine (does_bufReset w.coords).step (R := w.self :: w.geom :: w.nodes.toList) (by unfold WkbRd.blocks; cnt) fun _ l hl => ?_
  subst hl
  refine (does_bufReset w.nodes).step (R := [w.self, w.geom]) (by cnt) fun _ l hl => ?_
  subst hl
  refine (does_free w.geom).step (R := [w.self]) (by cnt) fun _ l hl => ?_
  subst hl
  exact does_free w.self

theorem does_readerReset (r : Reader) : Does r.reset r.blocks fun _ l => l = [] := by
  refine (does_resetOpt does_wkbRdReset r.wkb).step (R := r.self :: r.wkt.toList) (by unfold Reader.blocks; cnt) fun _ l hl => ?_
  subst hl
  refine (does_bufReset r.wkt).step (R := [r.self]) (by cnt) fun _ l hl => ?_
  subst hl
  exact does_free r.self

/-! ## Kernels -/

/-- What always holds of a kernel. -/
structure Kernel.Good (k : Kernel) : Prop where
  bare : k.priv = none → k.kind = .void ∨ k.kind = .voidAgg
  plain : k.kind = .void ∨ k.kind = .voidAgg → k.priv = none
  wkt : ∀ p, k.priv = some p → k.kind = .formatWkt → p.wkt.isSome = true
  reader : ∀ p, k.priv = some p → k.visits = true → p.reader.isSome = true

/-- An `as_geoarrow` kernel has its writer. -/
def Kernel.Writes (k : Kernel) : Prop := k.kind = .asGeoarrow → ∀ p, k.priv = some p → p.writer.isSome = true

/-- A kernel just initialised. -/
def NewKernel (k : Kind) (x : Kernel) : Prop :=
  x.kind = k ∧ x.visits = false ∧ (∀ p, x.priv = some p → p.reader = none ∧ p.writer = none) ∧ (k ≠ .void → k ≠ .voidAgg → x.priv.isSome = true)

theorem does_kernelInit (k : Kind) : Does (Kernel.init k) [] fun x l => l = x.blocks ∧ x.Good ∧ NewKernel k x := by
  have mk : ∀ a, k ≠ .void → k ≠ .voidAgg → k ≠ .formatWkt → (⟨k, some ⟨a, none, none, none, List.replicate 4 none, none⟩, false⟩ : Kernel).Good :=
    fun a h1 h2 h3 => ⟨(fun h => by cases h), (fun h => h.elim (fun h => absurd h h1) (fun h => absurd h h2)), fun _ _ h => absurd h h3, (fun _ _ h => by cases h)⟩
  have one : k ≠ .void → k ≠ .voidAgg → k ≠ .formatWkt →
      Does (do let a ← malloc; pure (⟨k, some ⟨a, none, none, none, List.replicate 4 none, none⟩, false⟩ : Kernel)) [] fun x l => l = x.blocks ∧ x.Good ∧ NewKernel k x := by
    intro h1 h2 h3
    refine does_malloc.bind fun a l hl => ?_
    subst hl
    exact Does.pure (fun _ => rfl) ⟨rfl, mk a h1 h2 h3, rfl, rfl, (fun p h => by cases h; exact ⟨rfl, rfl⟩), fun _ _ => rfl⟩
  cases k with
  | void => exact Does.pure (fun _ => rfl) ⟨rfl, ⟨fun _ => .inl rfl, fun _ => rfl, (fun _ h => by cases h), (fun _ h => by cases h)⟩, rfl, rfl, (fun p h => by cases h), fun h h' => by first | exact absurd rfl h | exact absurd rfl h'⟩
  | voidAgg => exact Does.pure (fun _ => rfl) ⟨rfl, ⟨fun _ => .inr rfl, fun _ => rfl, (fun _ h => by cases h), (fun _ h => by cases h)⟩, rfl, rfl, (fun p h => by cases h), fun h h' => by first | exact absurd rfl h | exact absurd rfl h'⟩
  | formatWkt =>
    refine does_malloc.bind fun a l hl => ?_
    subst hl
    refine does_serialInit.step (R := [a]) (by cnt) fun w l hl => ?_
    subst hl
    refine Does.pure (l := Kernel.blocks ⟨.formatWkt, some ⟨a, none, none, some w, List.replicate 4 none, none⟩, false⟩)
      (by simp only [Kernel.blocks, optBlocks, Priv.blocks, blocks_replicate]; cnt) ⟨rfl, ⟨?_, ?_, ?_, ?_⟩, rfl, rfl, (fun p h => by cases h; exact ⟨rfl, rfl⟩), fun _ _ => rfl⟩
    · intro h; cases h
    · intro h; rcases h with h | h <;> cases h
    · intro p h _; cases h; rfl
    · intro p h h'; cases h'
  | visitVoidAgg => exact one (by decide) (by decide) (by decide)
  | asGeoarrow => exact one (by decide) (by decide) (by decide)
  | uniqueTypes => exact one (by decide) (by decide) (by decide)
  | box => exact one (by decide) (by decide) (by decide)
  | boxAgg => exact one (by decide) (by decide) (by decide)

theorem does_schemaInit : Does schemaInit [] fun s l => l = optBlocks Obj.blocks s := by
  refine does_malloc.bind fun a l hl => ?_
  subst hl
  exact Does.pure (fun _ => rfl) rfl

/-- What `finish_start` leaves: the caller's schema, the kernel's memory and what is lost. -/
def Left (k : Kind) (o : Start) (p : Priv) (r : (Code × Option Obj) × Priv) (l : List Nat) : Prop :=
  ∃ lost, l = optBlocks Obj.blocks r.1.2 ++ (r.2.blocks ++ lost) ∧ (o.out ≠ .large → lost = []) ∧ r.2.reader = p.reader ∧ r.2.wkt = p.wkt ∧
    (p.writer.isSome = true → r.2.writer.isSome = true) ∧ (o.out = .large → o.args = 0 → p.writer = none → k = .asGeoarrow → lost ≠ [])

theorem does_startAsGeoarrow (o : Start) (p : Priv) :
    Does (startAsGeoarrow o p) p.blocks fun r l => Left .asGeoarrow o p r l ∧ (r.1.1 = 0 → r.2.writer.isSome = true) := by
  unfold startAsGeoarrow
  by_cases h1 : o.args ≠ 0
  · rw [if_pos h1]
    exact Does.pure (l := [] ++ (p.blocks ++ [])) (by cnt) ⟨⟨[], rfl, fun _ => rfl, rfl, rfl, id, fun _ h => absurd h h1⟩, fun h => absurd h h1⟩
  rw [if_neg h1]
  by_cases h2 : p.writer.isSome = true
  · rw [if_pos h2]
    exact Does.pure (l := [] ++ (p.blocks ++ [])) (by cnt) ⟨⟨[], rfl, fun _ => rfl, rfl, rfl, id, fun _ _ h => by rw [h] at h2; cases h2⟩, fun h => by cases h⟩
  rw [if_neg h2]
  have hn : p.writer = none := by cases h : p.writer with | none => rfl | some _ => rw [h] at h2; exact absurd rfl h2
  refine (does_writerInit o.out o.grows).step (R := p.blocks) (by cnt) fun r l hl => ?_
  obtain ⟨lost, rfl, hlost, hz, hne⟩ := hl
  cases r with
  | error rc =>
    exact Does.pure (l := [] ++ (p.blocks ++ lost)) (by simp only [exBlocks]; cnt) ⟨⟨lost, rfl, hlost, rfl, rfl, id, fun h _ _ _ => hne h⟩, fun h => absurd h (hz rc rfl)⟩
  | ok w =>
    have hw : Eqv (w.blocks ++ p.blocks) (Priv.blocks { p with writer := some w }) := by simp only [Priv.blocks, hn, optBlocks]; cnt
    show Does (if o.visitor ≠ 0 then _ else _) ((w.blocks ++ lost) ++ p.blocks) _
    by_cases h3 : o.visitor ≠ 0
    · rw [if_pos h3]
      exact Does.pure (l := [] ++ (Priv.blocks { p with writer := some w } ++ lost)) (fun x => by have := hw x; simp only [List.count_append, List.count_nil] at this ⊢; omega)
        ⟨⟨lost, rfl, hlost, rfl, rfl, fun _ => rfl, fun h _ _ _ => hne h⟩, fun _ => rfl⟩
    · rw [if_neg h3]
      refine does_malloc.step (R := (w.blocks ++ lost) ++ p.blocks) (by cnt) fun a l hl => ?_
      subst hl
      by_cases h4 : o.metadata ≠ 0
      · rw [if_pos h4]
        refine (does_free a).step (R := (w.blocks ++ lost) ++ p.blocks) (fun _ => rfl) fun _ l hl => ?_
        subst hl
        exact Does.pure (l := [] ++ (Priv.blocks { p with writer := some w } ++ lost)) (fun x => by have := hw x; simp only [List.count_append, List.count_nil] at this ⊢; omega)
          ⟨⟨lost, rfl, hlost, rfl, rfl, fun _ => rfl, fun h _ _ _ => hne h⟩, fun _ => rfl⟩
      · rw [if_neg h4]
        exact Does.pure (l := [a] ++ (Priv.blocks { p with writer := some w } ++ lost)) (fun x => by have := hw x; simp only [List.count_append, List.count_nil] at this ⊢; omega)
          ⟨⟨lost, rfl, hlost, rfl, rfl, fun _ => rfl, fun h _ _ _ => hne h⟩, fun _ => rfl⟩

theorem does_schemaLeft (k : Kind) (hk : k ≠ .asGeoarrow) (o : Start) (p : Priv) :
    Does (do let s ← schemaInit; pure ((0, s), p) : H ((Code × Option Obj) × Priv)) p.blocks (Left k o p) := by
  refine does_schemaInit.step (R := p.blocks) (by cnt) fun s l hl => ?_
  subst hl
  exact Does.pure (l := optBlocks Obj.blocks s ++ (p.blocks ++ [])) (by cnt) ⟨[], rfl, fun _ => rfl, rfl, rfl, id, fun _ _ _ h => absurd h hk⟩

theorem does_orSchema (k : Kind) (hk : k ≠ .asGeoarrow) (o : Start) (p : Priv) (rc : Code) :
    Does (if rc ≠ 0 then pure ((rc, none), p) else do let s ← schemaInit; pure ((0, s), p) : H ((Code × Option Obj) × Priv)) p.blocks (Left k o p) := by
  by_cases h : rc ≠ 0
  · rw [if_pos h]
    exact Does.pure (l := [] ++ (p.blocks ++ [])) (by cnt) ⟨[], rfl, fun _ => rfl, rfl, rfl, id, fun _ _ _ h => absurd h hk⟩
  · rw [if_neg h]
    exact does_schemaLeft k hk o p

theorem Does.weak {α : Type} {x : H α} {pre : List Nat} {Q Q' : α → List Nat → Prop} (h : Does x pre Q) (hq : ∀ a l, Q a l → Q' a l) : Does x pre Q' :=
  h.conseq (fun _ => rfl) fun a l q => ⟨l, fun _ => rfl, hq a l q⟩

theorem does_finishStart (k : Kind) (o : Start) (p : Priv) :
    Does (finishStart k o p) p.blocks fun r l => Left k o p r l ∧ (k = .asGeoarrow → r.1.1 = 0 → r.2.writer.isSome = true) := by
  cases k with
  | asGeoarrow => exact (does_startAsGeoarrow o p).weak fun _ _ h => ⟨h.1, fun _ => h.2⟩
  | formatWkt => exact (does_orSchema _ (by decide) o p o.args).weak fun _ _ h => ⟨h, fun h => by cases h⟩
  | box => exact (does_orSchema _ (by decide) o p o.metadata).weak fun _ _ h => ⟨h, fun h => by cases h⟩
  | boxAgg => exact (does_orSchema _ (by decide) o p o.metadata).weak fun _ _ h => ⟨h, fun h => by cases h⟩
  | void => exact (does_schemaLeft _ (by decide) o p).weak fun _ _ h => ⟨h, fun h => by cases h⟩
  | voidAgg => exact (does_schemaLeft _ (by decide) o p).weak fun _ _ h => ⟨h, fun h => by cases h⟩
  | visitVoidAgg => exact (does_schemaLeft _ (by decide) o p).weak fun _ _ h => ⟨h, fun h => by cases h⟩
  | uniqueTypes => exact (does_schemaLeft _ (by decide) o p).weak fun _ _ h => ⟨h, fun h => by cases h⟩

/-- The kernel has no reader yet. -/
def Kernel.Fresh (k : Kernel) : Prop := ∀ p, k.priv = some p → p.reader = none

/-- What a call on a good kernel leaves. -/
def After (k : Kernel) (r : (Code × Option Obj) × Kernel) (lost l : List Nat) : Prop :=
  l = optBlocks Obj.blocks r.1.2 ++ (r.2.blocks ++ lost) ∧ r.2.Good ∧ (k.Writes → r.2.Writes)

/-- What a start with an accepted schema does besides: the kernel has a reader, the reader it had before is lost, and so is the block of
a writer for an unsupported type. -/
def Accepted (o : Start) (k k' : Kernel) (lost : List Nat) : Prop :=
  k.priv.isSome = true ∧ o.view = 0 ∧ o.refused = 0 → (∃ p, k'.priv = some p ∧ p.reader.isSome = true) ∧ (¬ k.Fresh → lost ≠ []) ∧
    (o.out = .large → o.args = 0 → (∀ p, k.priv = some p → p.writer = none) → k.kind = .asGeoarrow → lost ≠ [])

theorem does_start (o : Start) (k : Kernel) (hk : k.Good) :
    Does (k.start o) k.blocks fun r l => ∃ lost, After k r lost l ∧ (k.Fresh → o.out ≠ .large → lost = []) ∧ (r.1.1 = 0 → r.2.Writes) ∧
      Accepted o k r.2 lost := by
  unfold Kernel.start
  obtain ⟨kind, priv, vis⟩ := k
  cases priv with
  | none =>
    refine does_schemaInit.step (R := []) (by simp only [Kernel.blocks, optBlocks]; cnt) fun s l hl => ?_
    subst hl
    exact Does.pure (fun _ => rfl) ⟨[], ⟨rfl, hk, id⟩, fun _ _ => rfl, (fun _ _ _ h => by cases h), fun h => by cases h.1⟩
  | some p =>
    show Does (if o.view ≠ 0 then _ else _) p.blocks _
    by_cases h1 : o.view ≠ 0
    · rw [if_pos h1]
      exact Does.pure (l := [] ++ (p.blocks ++ [])) (by cnt) ⟨[], ⟨rfl, hk, id⟩, fun _ _ => rfl, (fun h => absurd h h1), fun h => absurd h.2.1 h1⟩
    rw [if_neg h1]
    refine (does_readerInit o.parser o.refused).step (R := p.blocks) (by cnt) fun r l hl => ?_
    obtain ⟨rfl, hz, hz'⟩ := hl
    cases r with
    | error rc => exact Does.pure (l := [] ++ (p.blocks ++ [])) (by simp only [exBlocks]; cnt) ⟨[], ⟨rfl, hk, id⟩, fun _ _ => rfl, (fun h => absurd h (hz rc rfl)), fun h => by obtain ⟨x, hx⟩ := hz' h.2.2; cases hx⟩
    | ok rd =>
      refine (does_finishStart kind o { p with reader := some rd }).step (R := optBlocks Reader.blocks p.reader)
        (by simp only [exBlocks, Priv.blocks, optBlocks]; cnt) fun s l hl => ?_
      obtain ⟨⟨lost, rfl, h2, h3, h4, h5, h7⟩, h6⟩ := hl
      refine Does.pure (l := optBlocks Obj.blocks s.1.2 ++ (s.2.blocks ++ (lost ++ optBlocks Reader.blocks p.reader))) (by cnt)
        ⟨lost ++ optBlocks Reader.blocks p.reader, ⟨rfl, ⟨?_, ?_, ?_, ?_⟩, ?_⟩, ?_, ?_, ?_⟩
      · intro h; cases h
      · intro h; cases hk.plain h
      · intro p' h h'
        cases h
        rw [h4]
        exact hk.wkt p rfl h'
      · intro p' h h'
        cases h
        rw [h3]
        rfl
      · intro h h' p' hp
        cases hp
        exact h5 (h h' p rfl)
      · intro hf hl
        rw [h2 hl, hf p rfl]
        rfl
      · intro h0 h' p' hp
        cases hp
        exact h6 h' h0
      · refine fun _ => ⟨⟨s.2, rfl, by rw [h3]; rfl⟩, fun hf hl => hf fun p' hp => ?_, fun hl ha hw hk' hn => ?_⟩
        · cases hp
          cases hr : p.reader with
          | none => rfl
          | some x =>
            rw [hr] at hl
            obtain ⟨_, h⟩ := List.append_eq_nil_iff.mp hl
            cases h
        · exact h7 hl ha (hw p rfl) hk' (List.append_eq_nil_iff.mp hn).1

theorem does_boxBitmap (f : Fin) (p : Priv) : Does (boxBitmap f p) p.validity.toList fun v l => l = v.toList := by
  unfold boxBitmap
  by_cases h : f.nulls = true
  · rw [if_pos h]; exact Does.pure (fun _ => rfl) rfl
  · rw [if_neg h]
    refine (does_bufReset p.validity).bind fun _ l hl => ?_
    subst hl
    exact Does.pure (fun _ => rfl) rfl

/-- What a step on the private data keeps. -/
def Kept (p p' : Priv) : Prop :=
  (p.reader.isSome = true → p'.reader.isSome = true) ∧ (p.wkt.isSome = true → p'.wkt.isSome = true) ∧ (p.writer.isSome = true → p'.writer.isSome = true) ∧
    (p.reader = none → p'.reader = none)

theorem does_boxFinish (f : Fin) (p : Priv) :
    Does (boxFinish f p) p.blocks fun r l => l = optBlocks Obj.blocks r.1.2 ++ r.2.blocks ∧ Kept p r.2 := by
  refine does_malloc.step (R := p.blocks) (by cnt) fun a l hl => ?_
  subst hl
  refine (does_boxBitmap f p).step (R := a :: p.self :: (optBlocks Reader.blocks p.reader ++ (optBlocks Writer.blocks p.writer ++ (optBlocks Serial.blocks p.wkt ++ blocksOf p.boxes))))
    (by unfold Priv.blocks; cnt) fun v l hl => ?_
  subst hl
  refine (does_bufsFinalize p.boxes).step (R := v.toList ++ a :: p.self :: (optBlocks Reader.blocks p.reader ++ (optBlocks Writer.blocks p.writer ++ optBlocks Serial.blocks p.wkt)))
    (by cnt) fun bufs l hl => ?_
  subst hl
  by_cases h : f.valid ≠ 0
  · rw [if_pos h]
    refine (does_objRelease ⟨a, v :: bufs⟩).step (R := p.self :: (optBlocks Reader.blocks p.reader ++ (optBlocks Writer.blocks p.writer ++ optBlocks Serial.blocks p.wkt)))
      (by simp only [Obj.blocks, blocksOf]; cnt) fun _ l hl => ?_
    subst hl
    exact Does.pure (by simp only [optBlocks, Priv.blocks, blocks_replicate]; cnt) ⟨rfl, id, id, id, id⟩
  · rw [if_neg h]
    exact Does.pure (by simp only [optBlocks, Priv.blocks, Obj.blocks, blocksOf, blocks_replicate]; cnt) ⟨rfl, id, id, id, id⟩

theorem does_visitInto (k : Kind) (g : Nat → Bool) (p : Priv) (hw : k = .formatWkt → p.wkt.isSome = true) :
    Does (visitInto k g p) p.blocks fun p' l => l = p'.blocks ∧ Kept p p' := by
  have skip : Does (pure p : H Priv) p.blocks fun p' l => l = p'.blocks ∧ Kept p p' := Does.pure (fun _ => rfl) ⟨rfl, id, id, id, id⟩
  obtain ⟨a, rd, wr, wk, bx, va⟩ := p
  cases k with
  | formatWkt =>
    cases wk with
    | none => cases hw rfl
    | some w =>
      refine (does_serialVisit g w).step (R := a :: (optBlocks Reader.blocks rd ++ (optBlocks Writer.blocks wr ++ (blocksOf bx ++ va.toList))))
        (by simp only [Priv.blocks, optBlocks]; cnt) fun w' l hl => ?_
      subst hl
      exact Does.pure (by simp only [Priv.blocks, optBlocks]; cnt) ⟨rfl, id, fun _ => rfl, id, id⟩
  | asGeoarrow =>
    cases wr with
    | none => exact skip
    | some w =>
      refine (does_writerVisit g w).step (R := a :: (optBlocks Reader.blocks rd ++ (optBlocks Serial.blocks wk ++ (blocksOf bx ++ va.toList))))
        (by simp only [Priv.blocks, optBlocks]; cnt) fun w' l hl => ?_
      subst hl
      exact Does.pure (by simp only [Priv.blocks, optBlocks]; cnt) ⟨rfl, id, id, fun _ => rfl, id⟩
  | box =>
    refine (does_bufGrow va (g 0)).step (R := a :: (optBlocks Reader.blocks rd ++ (optBlocks Writer.blocks wr ++ (optBlocks Serial.blocks wk ++ blocksOf bx))))
      (by simp only [Priv.blocks]; cnt) fun v l hl => ?_
    subst hl
    refine (does_growFrom g bx 1).step (R := v.toList ++ a :: (optBlocks Reader.blocks rd ++ (optBlocks Writer.blocks wr ++ optBlocks Serial.blocks wk))) (by cnt) fun bs l hl => ?_
    subst hl
    exact Does.pure (by simp only [Priv.blocks]; cnt) ⟨rfl, id, id, id, id⟩
  | void => exact skip
  | voidAgg => exact skip
  | visitVoidAgg => exact skip
  | uniqueTypes => exact skip
  | boxAgg => exact skip

theorem does_finishPush (k : Kind) (o : Push) (p : Priv) (ho : k.perBatch → o.out = true) (hw : k = .formatWkt → p.wkt.isSome = true)
    (hg : k = .asGeoarrow → p.writer.isSome = true) :
    Does (finishPush k o p) p.blocks fun r l => l = optBlocks Obj.blocks r.1.2 ++ r.2.blocks ∧ Kept p r.2 := by
  have skip : Does (pure ((0, none), p) : H ((Code × Option Obj) × Priv)) p.blocks fun r l => l = optBlocks Obj.blocks r.1.2 ++ r.2.blocks ∧ Kept p r.2 :=
    Does.pure (fun _ => rfl) ⟨rfl, id, id, id, id⟩
  obtain ⟨a, rd, wr, wk, bx, va⟩ := p
  cases k with
  | formatWkt =>
    cases wk with
    | none => cases hw rfl
    | some w =>
      show Does (if o.out = true then _ else _) _ _
      rw [if_pos (ho (.inr (.inl rfl)))]
      refine (does_serialFinish o.fin w).step (R := a :: (optBlocks Reader.blocks rd ++ (optBlocks Writer.blocks wr ++ (blocksOf bx ++ va.toList))))
        (by simp only [Priv.blocks, optBlocks]; cnt) fun w' l hl => ?_
      subst hl
      exact Does.pure (by simp only [Priv.blocks, optBlocks]; cnt) ⟨rfl, id, fun _ => rfl, id, id⟩
  | asGeoarrow =>
    cases wr with
    | none => cases hg rfl
    | some w =>
      show Does (if o.out = true then _ else _) _ _
      rw [if_pos (ho (.inr (.inr (.inl rfl))))]
      refine (does_writerFinish o.fin w).step (R := a :: (optBlocks Reader.blocks rd ++ (optBlocks Serial.blocks wk ++ (blocksOf bx ++ va.toList))))
        (by simp only [Priv.blocks, optBlocks]; cnt) fun w' l hl => ?_
      subst hl
      exact Does.pure (by simp only [Priv.blocks, optBlocks]; cnt) ⟨rfl, id, id, fun _ => rfl, id⟩
  | box =>
    show Does (if o.out = true then _ else _) _ _
    rw [if_pos (ho (.inr (.inr (.inr rfl))))]
    exact does_boxFinish o.fin _
  | void => exact skip
  | voidAgg => exact skip
  | visitVoidAgg => exact skip
  | uniqueTypes => exact skip
  | boxAgg => exact skip

theorem does_giveNa (out : Bool) (h : out = true) : Does (giveNa out) [] fun r l => l = optBlocks Obj.blocks r.2 := by
  subst h
  refine does_malloc.bind fun a l hl => ?_
  subst hl
  exact Does.pure (fun _ => rfl) rfl

theorem good_kept {k : Kernel} {p p' : Priv} (hk : k.Good) (hp : k.priv = some p) (h : Kept p p') :
    Kernel.Good { k with priv := some p' } ∧ (k.Writes → Kernel.Writes { k with priv := some p' }) := by
  refine ⟨⟨?_, ?_, ?_, ?_⟩, ?_⟩
  · intro h; cases h
  · intro h; rw [hk.plain h] at hp; cases hp
  · intro q hq hf; cases hq; exact h.2.1 (hk.wkt p hp hf)
  · intro q hq hv; cases hq; exact h.1 (hk.reader p hp hv)
  · intro hw hf q hq; cases hq; exact h.2.2.1 (hw hf p hp)

/-- The kernel still visits if it did, and has no reader if it had none. -/
def Same (k k' : Kernel) : Prop := k'.visits = k.visits ∧ (k.Fresh → k'.Fresh)

theorem same_kept {k : Kernel} {p p' : Priv} (hp : k.priv = some p) (h : Kept p p') : Same k { k with priv := some p' } :=
  ⟨rfl, fun hf q hq => by cases hq; exact h.2.2.2 (hf p hp)⟩

theorem Kept.trans {p q r : Priv} (h : Kept p q) (h' : Kept q r) : Kept p r := ⟨h'.1 ∘ h.1, h'.2.1 ∘ h.2.1, h'.2.2.1 ∘ h.2.2.1, h'.2.2.2 ∘ h.2.2.2⟩

theorem push_priv (o : Push) (k : Kernel) (p : Priv) (hp : k.priv = some p) (hv : k.kind ≠ .void) :
    Kernel.push o k = if k.visits then
      match p.reader with
      | none => crash
      | some rd =>
        if o.set ≠ 0 then pure ((o.set, none), k)
        else do
          let rd' ← rd.visit o.nodes
          let p' ← visitInto k.kind o.grows { p with reader := some rd' }
          if o.visit ≠ 0 then pure ((o.visit, none), { k with priv := some p' })
          else do
            let r ← finishPush k.kind o p'
            pure (r.1, { k with priv := some r.2 })
    else pure ((if o.out then EINVAL else 0, none), k) := by
  obtain ⟨kind, priv, vis⟩ := k
  cases hp
  cases kind <;> first | rfl | exact absurd rfl hv

theorem does_push (o : Push) (k : Kernel) (hk : k.Good) (ho : k.kind.perBatch → o.out = true) (hg : k.visits = true → k.Writes) :
    Does (k.push o) k.blocks fun r l => After k r [] l ∧ Same k r.2 := by
  cases hp : k.priv with
  | none =>
    have hb : k.blocks = [] := by unfold Kernel.blocks; rw [hp]; rfl
    rw [hb]
    obtain ⟨kind, priv, vis⟩ := k
    cases hp
    rcases hk.bare rfl with h | h
    · cases h
      refine (does_giveNa o.out (ho (.inl rfl))).bind fun r l hl => ?_
      subst hl
      exact Does.pure (l := optBlocks Obj.blocks r.2 ++ ([] ++ [])) (by cnt) ⟨⟨rfl, hk, id⟩, rfl, id⟩
    · cases h
      exact Does.pure (fun _ => rfl) ⟨⟨rfl, hk, id⟩, rfl, id⟩
  | some p =>
    have hb : k.blocks = p.blocks := by unfold Kernel.blocks; rw [hp]; rfl
    have hv : k.kind ≠ .void := fun h => by rw [hk.plain (.inl h)] at hp; cases hp
    rw [push_priv o k p hp hv]
    by_cases h1 : k.visits = true
    · rw [if_pos h1]
      have hr := hk.reader p hp h1
      cases hrd : p.reader with
      | none => rw [hrd] at hr; cases hr
      | some rd =>
        show Does (if o.set ≠ 0 then _ else _) _ _
        by_cases h2 : o.set ≠ 0
        · rw [if_pos h2]
          exact Does.pure (l := [] ++ (k.blocks ++ [])) (by cnt) ⟨⟨rfl, hk, id⟩, rfl, id⟩
        rw [if_neg h2, hb]
        refine (does_readerVisit o.nodes rd).step (R := p.self :: (optBlocks Writer.blocks p.writer ++ (optBlocks Serial.blocks p.wkt ++ (blocksOf p.boxes ++ p.validity.toList))))
          (by simp only [Priv.blocks, hrd, optBlocks]; cnt) fun rd' l hl => ?_
        subst hl
        have k1 : Kept p { p with reader := some rd' } := ⟨fun _ => rfl, id, id, fun h => by rw [hrd] at h; cases h⟩
        refine (does_visitInto k.kind o.grows { p with reader := some rd' } (fun h => k1.2.1 (hk.wkt p hp h))).step (R := [])
          (by simp only [Priv.blocks, optBlocks]; cnt) fun p' l hl => ?_
        obtain ⟨rfl, k2⟩ := hl
        have k3 := k1.trans k2
        by_cases h3 : o.visit ≠ 0
        · rw [if_pos h3]
          exact Does.pure (l := [] ++ (p'.blocks ++ [])) (by cnt) ⟨⟨rfl, good_kept hk hp k3⟩, same_kept hp k3⟩
        rw [if_neg h3, List.append_nil]
        refine (does_finishPush k.kind o p' ho (fun h => k3.2.1 (hk.wkt p hp h)) (fun h => k3.2.2.1 (hg h1 h p hp))).bind fun r l hl => ?_
        obtain ⟨rfl, k4⟩ := hl
        exact Does.pure (l := optBlocks Obj.blocks r.1.2 ++ (r.2.blocks ++ [])) (by cnt) ⟨⟨rfl, good_kept hk hp (k3.trans k4)⟩, same_kept hp (k3.trans k4)⟩
    · rw [if_neg h1]
      exact Does.pure (l := [] ++ (k.blocks ++ [])) (by cnt) ⟨⟨rfl, hk, id⟩, rfl, id⟩

theorem does_finishTypes (o : Push) (h : o.out = true) : Does (finishTypes o) [] fun r l => l = optBlocks Obj.blocks r.2 := by
  refine does_malloc.bind fun a l hl => ?_
  subst hl
  refine (does_bufGrow none true).step (R := [a]) (by cnt) fun d l hl => ?_
  subst hl
  by_cases h1 : o.fin.valid ≠ 0
  · rw [if_pos h1]
    refine (does_objRelease ⟨a, [d]⟩).step (R := []) (by simp only [Obj.blocks, blocksOf]; cnt) fun _ l hl => ?_
    subst hl
    exact Does.pure (fun _ => rfl) rfl
  · rw [if_neg h1, if_pos h]
    exact Does.pure (by simp only [optBlocks, Obj.blocks, blocksOf]; cnt) rfl

theorem does_finish (o : Push) (k : Kernel) (hk : k.Good) (ho : ¬ k.kind.perBatch → o.out = true) :
    Does (k.finish o) k.blocks fun r l => After k r [] l ∧ Same k r.2 := by
  have give : ∀ x : H (Code × Option Obj), Does x [] (fun r l => l = optBlocks Obj.blocks r.2) →
      Does (do let r ← x; pure (r, k) : H ((Code × Option Obj) × Kernel)) k.blocks fun r l => After k r [] l ∧ Same k r.2 := by
    intro x hx
    refine hx.step (R := k.blocks) (by cnt) fun r l hl => ?_
    subst hl
    exact Does.pure (l := optBlocks Obj.blocks r.2 ++ (k.blocks ++ [])) (by cnt) ⟨⟨rfl, hk, id⟩, rfl, id⟩
  have skip : Does (pure ((if o.out then EINVAL else 0, none), k) : H ((Code × Option Obj) × Kernel)) k.blocks fun r l => After k r [] l ∧ Same k r.2 :=
    Does.pure (l := [] ++ (k.blocks ++ [])) (by cnt) ⟨⟨rfl, hk, id⟩, rfl, id⟩
  obtain ⟨kind, priv, vis⟩ := k
  cases kind with
  | void => exact skip
  | formatWkt => exact skip
  | asGeoarrow => exact skip
  | box => exact skip
  | voidAgg => exact give _ (does_giveNa o.out (ho (by simp [Kind.perBatch])))
  | visitVoidAgg => exact give _ (does_giveNa o.out (ho (by simp [Kind.perBatch])))
  | uniqueTypes => exact give _ (does_finishTypes o (ho (by simp [Kind.perBatch])))
  | boxAgg =>
    cases priv with
    | none => exact skip
    | some p =>
      refine Does.step (x := bufsGrow o.grows p.boxes) (does_growFrom o.grows p.boxes 0)
        (R := p.self :: (optBlocks Reader.blocks p.reader ++ (optBlocks Writer.blocks p.writer ++ (optBlocks Serial.blocks p.wkt ++ p.validity.toList))))
        (by simp only [Kernel.blocks, optBlocks, Priv.blocks]; cnt) fun bs l hl => ?_
      subst hl
      rw [if_pos (ho (by simp [Kind.perBatch]))]
      refine (does_boxFinish o.fin { p with boxes := bs }).step (R := []) (by simp only [Priv.blocks]; cnt) fun r l hl => ?_
      obtain ⟨rfl, h⟩ := hl
      exact Does.pure (l := optBlocks Obj.blocks r.1.2 ++ (r.2.blocks ++ [])) (by cnt) ⟨⟨rfl, good_kept (p := p) hk rfl h⟩, same_kept (p := p) rfl h⟩

theorem does_release (k : Kernel) : Does k.release k.blocks fun _ l => l = [] := by
  obtain ⟨kind, priv, vis⟩ := k
  cases priv with
  | none => exact Does.pure (fun _ => rfl) rfl
  | some p =>
    refine (does_resetOpt does_readerReset p.reader).step (R := p.self :: (optBlocks Writer.blocks p.writer ++ (optBlocks Serial.blocks p.wkt ++ (blocksOf p.boxes ++ p.validity.toList))))
      (by simp only [Kernel.blocks, optBlocks, Priv.blocks]; cnt) fun _ l hl => ?_
    subst hl
    refine (does_resetOpt does_writerReset p.writer).step (R := p.self :: (optBlocks Serial.blocks p.wkt ++ (blocksOf p.boxes ++ p.validity.toList))) (by cnt) fun _ l hl => ?_
    subst hl
    refine (does_resetOpt does_serialReset p.wkt).step (R := p.self :: (blocksOf p.boxes ++ p.validity.toList)) (by cnt) fun _ l hl => ?_
    subst hl
    refine (does_bufsReset p.boxes).step (R := p.self :: p.validity.toList) (by cnt) fun _ l hl => ?_
    subst hl
    refine (does_bufReset p.validity).step (R := [p.self]) (by cnt) fun _ l hl => ?_
    subst hl
    exact does_free p.self

end Verif.Life
