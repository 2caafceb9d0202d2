import Verif.Spec.Ownership
import Verif.Proof.BuilderRead
/-!
# Memory of builders: everything taken is held or was given back
-/
namespace Verif.Own
open Spec

/-- A block of memory: the owner of a buffer that was handed over, or an address from `malloc`. -/
inductive Block where
  | given (t : Nat)
  | heap (a : Nat)
  deriving DecidableEq

def Buf.block (x : Buf) : Option Block :=
  match x.owner with
  | some t => some (.given t)
  | none => x.data.map .heap

def MemEvent.birth : MemEvent → Option Block
  | .malloc a => some (.heap a)
  | .took t => some (.given t)
  | _ => none

def MemEvent.death : MemEvent → Option Block
  | .free a => some (.heap a)
  | .custom t _ _ => some (.given t)
  | _ => none

def births (b : Block) (es : List MemEvent) : Nat := es.countP fun e => decide (e.birth = some b)
def deaths (b : Block) (es : List MemEvent) : Nat := es.countP fun e => decide (e.death = some b)
def is (b : Block) (x : Buf) : Nat := if x.block = some b then 1 else 0
def held (b : Block) (a : Arr) : Nat := (slotsOf [] a.tree).countP fun p => decide ((a.bufs p).block = some b)

theorem births_append (b : Block) (x y : List MemEvent) : births b (x ++ y) = births b x + births b y := List.countP_append
theorem deaths_append (b : Block) (x y : List MemEvent) : deaths b (x ++ y) = deaths b x + deaths b y := List.countP_append

/-! ## Slots -/

mutual
theorem slots_prefix (p : List Nat) : (t : ATree BKind) → ∀ x ∈ slotsOf p t, p <+: x.1
  | .node k cs => by
    intro x hx
    unfold slotsOf at hx
    simp only [List.mem_cons] at hx
    rcases hx with rfl | rfl | rfl | hx
    · exact List.prefix_rfl
    · exact List.prefix_rfl
    · exact List.prefix_rfl
    · obtain ⟨m, -, h⟩ := slotsL_prefix p 0 cs x hx
      exact (List.prefix_append p [m]).trans h
theorem slotsL_prefix (p : List Nat) (k : Nat) : (cs : List (ATree BKind)) → ∀ x ∈ slotsOfL p k cs, ∃ m, k ≤ m ∧ (p ++ [m]) <+: x.1
  | [] => by intro x hx; unfold slotsOfL at hx; cases hx
  | c :: cs => by
    intro x hx
    unfold slotsOfL at hx
    rcases List.mem_append.mp hx with hx | hx
    · exact ⟨k, Nat.le_refl _, slots_prefix _ c x hx⟩
    · obtain ⟨m, hm, h⟩ := slotsL_prefix p (k + 1) cs x hx
      exact ⟨m, by omega, h⟩
end

theorem snoc_prefix_eq {p : List Nat} {m n : Nat} {x : List Nat} (h1 : (p ++ [m]) <+: x) (h2 : (p ++ [n]) <+: x) : m = n := by
  have h := List.prefix_of_prefix_length_le h1 h2 (by simp)
  have := h.eq_of_length (by simp)
  simpa using this

mutual
theorem slots_nodup (p : List Nat) : (t : ATree BKind) → (slotsOf p t).Nodup
  | .node k cs => by
    unfold slotsOf
    have h : ∀ j, (p, j) ∉ slotsOfL p 0 cs := by
      intro j hj
      obtain ⟨m, -, h⟩ := slotsL_prefix p 0 cs _ hj
      have := h.length_le
      rw [List.length_append] at this
      simp only [List.length_cons, List.length_nil] at this
      omega
    simp only [List.nodup_cons, List.mem_cons, not_or, h, not_false_iff, slotsL_nodup p 0 cs, Prod.mk.injEq]
    simp
theorem slotsL_nodup (p : List Nat) (k : Nat) : (cs : List (ATree BKind)) → (slotsOfL p k cs).Nodup
  | [] => by unfold slotsOfL; exact List.nodup_nil
  | c :: cs => by
    unfold slotsOfL
    refine List.nodup_append.mpr ⟨slots_nodup _ c, slotsL_nodup p (k + 1) cs, ?_⟩
    rintro x hx y hy rfl
    have h1 := slots_prefix _ c x hx
    obtain ⟨m, hm, h2⟩ := slotsL_prefix p (k + 1) cs x hy
    have := snoc_prefix_eq h1 h2
    omega
end

mutual
theorem dataSlots_sub (p : List Nat) : (t : ATree BKind) → ∀ x ∈ dataSlots p t, x ∈ slotsOf p t
  | .node k cs => by
    intro x hx
    unfold dataSlots at hx
    unfold slotsOf
    rcases List.mem_append.mp hx with hx | hx
    · obtain ⟨j, hj, rfl⟩ := List.mem_map.mp hx
      have : j < k.nBuffers - 1 := List.mem_range.mp hj
      have h3 : k.nBuffers ≤ 3 := by cases k <;> simp [BKind.nBuffers]
      have : j = 0 ∨ j = 1 := by omega
      rcases this with rfl | rfl <;> simp
    · simp only [List.mem_cons]
      exact Or.inr (Or.inr (Or.inr (dataSlotsL_sub p 0 cs x hx)))
theorem dataSlotsL_sub (p : List Nat) (k : Nat) : (cs : List (ATree BKind)) → ∀ x ∈ dataSlotsL p k cs, x ∈ slotsOfL p k cs
  | [] => by intro x hx; unfold dataSlotsL at hx; cases hx
  | c :: cs => by
    intro x hx
    unfold dataSlotsL at hx
    unfold slotsOfL
    rcases List.mem_append.mp hx with hx | hx
    · exact List.mem_append_left _ (dataSlots_sub _ c x hx)
    · exact List.mem_append_right _ (dataSlotsL_sub p (k + 1) cs x hx)
end

mutual
/-- All buffers with a flat index but the validity bitmap of the root are looked at in the end. -/
theorem flat_data (p : List Nat) : (t : ATree BKind) → ∀ x ∈ flatBuffers BKind.nBuffers 1 p t, x ∈ dataSlots p t
  | .node k cs => by
    intro x hx
    unfold flatBuffers at hx
    unfold dataSlots
    rcases List.mem_append.mp hx with hx | hx
    · exact List.mem_append_left _ hx
    · exact List.mem_append_right _ (flat_dataL p 0 cs x hx)
theorem flat_dataL (p : List Nat) (k : Nat) : (cs : List (ATree BKind)) → ∀ x ∈ flatBuffersL BKind.nBuffers p k cs, x ∈ dataSlotsL p k cs
  | [] => by intro x hx; unfold flatBuffersL at hx; cases hx
  | c :: cs => by
    intro x hx
    unfold flatBuffersL at hx
    unfold dataSlotsL
    rcases List.mem_append.mp hx with hx | hx
    · exact List.mem_append_left _ (flat_data _ c x hx)
    · exact List.mem_append_right _ (flat_dataL p (k + 1) cs x hx)
end

theorem bld_slot_eq (b : Bld) (i : Nat) : b.slot i = (flatBuffers BKind.nBuffers 0 [] b.arr.tree)[i]? := by
  unfold Bld.slot
  have h := (find_node BKind.nBuffers b.arr.tree i 0 [] (by omega) (hasValidity_kinds b.arr.tree)).1
  rw [List.length_nil] at h
  rw [h]
  cases (flatBuffers BKind.nBuffers 0 [] b.arr.tree)[i]? with
  | none => rfl
  | some x => obtain ⟨p, j⟩ := x; simp [toFound]

theorem flat_zero (t : ATree BKind) : ∃ l, flatBuffers BKind.nBuffers 0 [] t = ([], 0) :: l ∧ ∀ x ∈ l, x ∈ dataSlots [] t := by
  obtain ⟨k, cs⟩ := t
  have h1 : 1 ≤ k.nBuffers := by cases k <;> simp [BKind.nBuffers]
  have hf : flatBuffers BKind.nBuffers 0 [] (.node k cs) = ([], 0) :: flatBuffers BKind.nBuffers 1 [] (.node k cs) := by
    unfold flatBuffers
    obtain ⟨n, hn⟩ : ∃ n, k.nBuffers = n + 1 := ⟨k.nBuffers - 1, by omega⟩
    rw [hn, Nat.sub_zero, Nat.add_sub_cancel, List.range_succ_eq_map]
    simp [Function.comp_def]
  exact ⟨_, hf, flat_data [] _⟩

theorem slot_mem {b : Bld} {i : Nat} {p : Slot} (h : b.slot i = some p) : p ∈ slotsOf [] b.arr.tree := by
  rw [bld_slot_eq] at h
  obtain ⟨l, hl, hd⟩ := flat_zero b.arr.tree
  have hm := List.mem_of_getElem? h
  rw [hl] at hm
  rcases List.mem_cons.mp hm with rfl | hm
  · cases b.arr.tree
    unfold slotsOf
    exact List.mem_cons_self
  · exact dataSlots_sub _ _ _ (hd _ hm)

theorem slot_data {b : Bld} {i : Nat} {p : Slot} (h : b.slot (i + 1) = some p) : p ∈ dataSlots [] b.arr.tree := by
  rw [bld_slot_eq] at h
  obtain ⟨l, hl, hd⟩ := flat_zero b.arr.tree
  rw [hl, List.getElem?_cons_succ] at h
  exact hd _ (List.mem_of_getElem? h)

mutual
theorem flat_nodup (p : List Nat) (m : Nat) : (t : ATree BKind) → (flatBuffers BKind.nBuffers m p t).Nodup
  | .node k cs => by
    unfold flatBuffers
    refine List.nodup_append.mpr ⟨?_, flatL_nodup p 0 cs, ?_⟩
    · rw [List.nodup_iff_pairwise_ne, List.pairwise_map]
      refine List.nodup_range.imp ?_
      intro a b h e
      simp only [Prod.mk.injEq, true_and] at e
      omega
    · rintro x hx y hy rfl
      obtain ⟨j, -, rfl⟩ := List.mem_map.mp hx
      obtain ⟨q, -, h⟩ := slotsL_prefix p 0 cs _ (dataSlotsL_sub p 0 cs _ (flat_dataL p 0 cs _ hy))
      have := h.length_le
      rw [List.length_append] at this
      simp only [List.length_cons, List.length_nil] at this
      omega
theorem flatL_nodup (p : List Nat) (k : Nat) : (cs : List (ATree BKind)) → (flatBuffersL BKind.nBuffers p k cs).Nodup
  | [] => by unfold flatBuffersL; exact List.nodup_nil
  | c :: cs => by
    unfold flatBuffersL
    refine List.nodup_append.mpr ⟨flat_nodup _ 1 c, flatL_nodup p (k + 1) cs, ?_⟩
    rintro x hx y hy rfl
    have h1 := slots_prefix _ c x (dataSlots_sub _ c x (flat_data _ c x hx))
    obtain ⟨m, hm, h2⟩ := slotsL_prefix p (k + 1) cs x (dataSlotsL_sub p (k + 1) cs x (flat_dataL p (k + 1) cs x hy))
    have := snoc_prefix_eq h1 h2
    omega
end

theorem slot_inj {b : Bld} {i j : Nat} {p : Slot} (hi : b.slot i = some p) (hj : b.slot j = some p) : i = j := by
  rw [bld_slot_eq] at hi hj
  have h1 := (List.getElem?_eq_some_iff.mp hi).1
  exact (List.getElem?_inj h1 (flat_nodup [] 0 b.arr.tree)).mp (hi.trans hj.symm)

theorem syncSizes_other (b : Bld) {q : Slot} : (n : Nat) → (a : Arr) → (∀ j < n, b.slot j ≠ some q) → (syncSizes b n a).bufs q = a.bufs q
  | 0, _, _ => rfl
  | n + 1, a, h => by
    unfold syncSizes
    split
    · exact syncSizes_other b n a fun j hj => h j (by omega)
    · rename_i p hp
      rw [syncSizes_other b n _ fun j hj => h j (by omega)]
      unfold Arr.set
      dsimp only
      rw [if_neg]
      rintro rfl
      exact h n (by omega) hp

theorem syncSizes_size (b : Bld) {q : Slot} {i : Nat} (hq : b.slot i = some q) : (n : Nat) → (a : Arr) → i < n →
    ((syncSizes b n a).bufs q).size = (b.view i).size
  | 0, _, h => by omega
  | n + 1, a, h => by
    unfold syncSizes
    by_cases hn : i = n
    · subst hn
      rw [hq]
      dsimp only
      rw [syncSizes_other b i _ fun j hj he => by have := slot_inj hq he; omega]
      unfold Arr.set
      dsimp only
      rw [if_pos rfl]
    · split
      · exact syncSizes_size b hq n a (by omega)
      · exact syncSizes_size b hq n _ (by omega)

theorem finalize_kept {q : Slot} : (ps : List Slot) → (next : Nat) → (a : Arr) → (a.bufs q).data ≠ none →
    (finalize ps next a).2.2.bufs q = a.bufs q
  | [], _, _, _ => rfl
  | p :: ps, next, a, h => by
    have hset : ∀ x : Buf, (a.bufs p).data = none → (a.set p x).bufs q = a.bufs q := by
      intro x hp
      unfold Arr.set
      dsimp only
      rw [if_neg]
      rintro rfl
      exact h hp
    unfold finalize
    split
    · rename_i hp
      dsimp only
      split
      · dsimp only
        rw [finalize_kept ps _ _ (by rw [hset _ hp]; exact h), hset _ hp]
      · exact hset _ hp
    · exact finalize_kept ps next a h

/-! ## Balance -/

theorem countP_set {α : Type} [DecidableEq α] (f g : α → Bool) (p : α) (hfg : ∀ x, x ≠ p → f x = g x) :
    (l : List α) → l.Nodup → p ∈ l → l.countP f + (if g p then 1 else 0) = l.countP g + (if f p then 1 else 0)
  | [], _, h => by cases h
  | x :: l, hn, h => by
    rw [List.nodup_cons] at hn
    simp only [List.countP_cons]
    by_cases hx : x = p
    · subst hx
      have : l.countP f = l.countP g := List.countP_congr fun y hy => by rw [hfg y (fun e => hn.1 (e ▸ hy))]
      omega
    · have ih := countP_set f g p hfg l hn.2 ((List.mem_cons.mp h).resolve_left fun e => hx e.symm)
      rw [hfg x hx]
      omega

theorem held_set {a : Arr} {p : Slot} (hp : p ∈ slotsOf [] a.tree) (x : Buf) (b : Block) :
    held b (a.set p x) + is b (a.bufs p) = held b a + is b x := by
  have h := countP_set (fun s => decide (((a.set p x).bufs s).block = some b)) (fun s => decide ((a.bufs s).block = some b)) p
    (by intro s hs; simp [Arr.set, hs]) (slotsOf [] a.tree) (slots_nodup _ _) hp
  have e : ((a.set p x).bufs p) = x := by unfold Arr.set; dsimp only; rw [if_pos rfl]
  rw [e] at h
  simp only [decide_eq_true_eq] at h
  exact h

theorem free_births (x : Buf) (b : Block) : births b x.free = 0 := by
  unfold Buf.free births
  cases x.owner with
  | some t => rfl
  | none => cases x.data <;> rfl

theorem free_deaths (x : Buf) (b : Block) : deaths b x.free = is b x := by
  unfold Buf.free deaths is Buf.block
  cases x.owner with
  | some t => simp [List.countP_cons, MemEvent.death]
  | none => cases x.data <;> simp [List.countP_cons, MemEvent.death]

theorem is_size (b : Block) (x : Buf) (n : Nat) : is b { x with size := n } = is b x := rfl

theorem reserve_balance (next n : Nat) (x : Buf) (b : Block) :
    births b (x.reserve next n).1 + is b x = deaths b (x.reserve next n).1 + is b (x.reserve next n).2.2 := by
  unfold Buf.reserve
  split
  · rfl
  · unfold Buf.realloc
    split
    · rename_i t ht
      dsimp only
      rw [free_births, free_deaths]
      have : is b ⟨none, 0, 0, none⟩ = 0 := rfl
      omega
    · rename_i ho
      dsimp only
      rw [births_append, deaths_append, free_births, free_deaths]
      have e1 : births b [.malloc next] = is b { x with data := some next, cap := growByFactor x.cap (x.size + n) } := by
        unfold births is Buf.block
        dsimp only
        rw [ho]
        simp [List.countP_cons, MemEvent.birth]
      rw [e1]
      have e2 : deaths b [.malloc next] = 0 := rfl
      omega

theorem syncSizes_tree (b : Bld) : (n : Nat) → (a : Arr) → (syncSizes b n a).tree = a.tree
  | 0, _ => rfl
  | n + 1, a => by
    unfold syncSizes
    split
    · exact syncSizes_tree b n a
    · exact syncSizes_tree b n _

/-- Only sizes differ. -/
theorem syncSizes_buf (b : Bld) : (n : Nat) → (a : Arr) → ∀ p, ((syncSizes b n a).bufs p).owner = (a.bufs p).owner ∧
    ((syncSizes b n a).bufs p).data = (a.bufs p).data ∧ ((syncSizes b n a).bufs p).cap = (a.bufs p).cap
  | 0, _ => fun _ => ⟨rfl, rfl, rfl⟩
  | n + 1, a => by
    intro p
    unfold syncSizes
    split
    · exact syncSizes_buf b n a p
    · obtain ⟨h1, h2, h3⟩ := syncSizes_buf b n (a.set _ { a.bufs _ with size := (b.view n).size }) p
      rw [h1, h2, h3]
      unfold Arr.set
      dsimp only
      split
      · rename_i e; rw [e]; exact ⟨rfl, rfl, rfl⟩
      · exact ⟨rfl, rfl, rfl⟩

theorem held_sync (b : Bld) (n : Nat) (a : Arr) (k : Block) : held k (syncSizes b n a) = held k a := by
  unfold held
  rw [syncSizes_tree]
  refine List.countP_congr fun p _ => ?_
  obtain ⟨h1, h2, -⟩ := syncSizes_buf b n a p
  unfold Buf.block
  rw [h1, h2]

theorem finalize_tree : (ps : List Slot) → (next : Nat) → (a : Arr) → (finalize ps next a).2.2.tree = a.tree
  | [], _, _ => rfl
  | p :: ps, next, a => by
    unfold finalize
    split
    · dsimp only
      split
      · exact finalize_tree ps _ _
      · rfl
    · exact finalize_tree ps _ _

theorem finalize_balance (b : Block) : (ps : List Slot) → (next : Nat) → (a : Arr) → (∀ p ∈ ps, p ∈ slotsOf [] a.tree) →
    births b (finalize ps next a).1 + held b a = deaths b (finalize ps next a).1 + held b (finalize ps next a).2.2
  | [], _, _, _ => rfl
  | p :: ps, next, a, h => by
    have hp := h p List.mem_cons_self
    unfold finalize
    split
    · dsimp only
      have h1 := reserve_balance next 1 (a.bufs p) b
      have h2 := held_set hp ((a.bufs p).reserve next 1).2.2 b
      split
      · have ih := finalize_balance b ps (next + ((a.bufs p).reserve next 1).1.countP MemEvent.isMalloc)
          (a.set p ((a.bufs p).reserve next 1).2.2) (fun q hq => h q (List.mem_cons_of_mem _ hq))
        dsimp only
        rw [births_append, deaths_append]
        omega
      · dsimp only
        omega
    · exact finalize_balance b ps next a (fun q hq => h q (List.mem_cons_of_mem _ hq))

theorem release_births (a : Arr) (b : Block) : births b a.release = 0 := by
  unfold Arr.release births
  generalize slotsOf [] a.tree = l
  induction l with
  | nil => rfl
  | cons p l ih => rw [List.flatMap_cons, List.countP_append, ih]; exact free_births (a.bufs p) b

theorem release_deaths (a : Arr) (b : Block) : deaths b a.release = held b a := by
  unfold Arr.release held
  generalize slotsOf [] a.tree = l
  induction l with
  | nil => rfl
  | cons p l ih =>
    rw [List.flatMap_cons, deaths_append, free_deaths, ih, List.countP_cons]
    unfold is
    simp only [decide_eq_true_eq]
    omega

/-! ## New addresses -/

def Fresh (next : Nat) (es : List MemEvent) : Prop :=
  ∀ a, births (.heap a) es = if next ≤ a ∧ a < next + es.countP MemEvent.isMalloc then 1 else 0

theorem fresh_none {next : Nat} {es : List MemEvent} (h : ∀ e ∈ es, e.isMalloc = false) : Fresh next es := by
  intro a
  have h0 : es.countP MemEvent.isMalloc = 0 := List.countP_eq_zero.mpr fun e he => by simp [h e he]
  rw [h0, if_neg (by omega)]
  refine List.countP_eq_zero.mpr fun e he => ?_
  have := h e he
  cases e <;> simp_all [MemEvent.birth, MemEvent.isMalloc]

theorem Fresh.append {next : Nat} {x y : List MemEvent} (hx : Fresh next x) (hy : Fresh (next + x.countP MemEvent.isMalloc) y) :
    Fresh next (x ++ y) := by
  intro a
  rw [births_append, hx a, hy a, List.countP_append]
  split <;> split <;> split <;> omega

theorem free_noMalloc (x : Buf) : ∀ e ∈ x.free, e.isMalloc = false := by
  unfold Buf.free
  cases x.owner with
  | some t => simp [MemEvent.isMalloc]
  | none => cases x.data <;> simp [MemEvent.isMalloc]

theorem release_noMalloc (a : Arr) : ∀ e ∈ a.release, e.isMalloc = false := by
  intro e he
  unfold Arr.release at he
  obtain ⟨p, -, h⟩ := List.mem_flatMap.mp he
  exact free_noMalloc _ e h

theorem reserve_fresh (next n : Nat) (x : Buf) : Fresh next (x.reserve next n).1 := by
  unfold Buf.reserve
  split
  · exact fresh_none (fun _ h => by cases h)
  · unfold Buf.realloc
    split
    · exact fresh_none (free_noMalloc x)
    · refine (fresh_none (free_noMalloc x)).append ?_
      have h0 : x.free.countP MemEvent.isMalloc = 0 := List.countP_eq_zero.mpr fun e he => by simp [free_noMalloc x e he]
      rw [h0]
      intro a
      unfold births
      simp only [List.countP_cons, List.countP_nil, MemEvent.birth, MemEvent.isMalloc, Option.some.injEq, Block.heap.injEq, decide_eq_true_eq, if_true]
      split <;> split <;> omega

theorem finalize_fresh : (ps : List Slot) → (next : Nat) → (a : Arr) → Fresh next (finalize ps next a).1
  | [], _, _ => fresh_none (fun _ h => by cases h)
  | p :: ps, next, a => by
    unfold finalize
    split
    · dsimp only
      split
      · exact (reserve_fresh next 1 (a.bufs p)).append (finalize_fresh ps _ _)
      · exact reserve_fresh next 1 (a.bufs p)
    · exact finalize_fresh ps next a

/-! ## Owners -/

/-- A buffer after `reserve` has the owner it had, if any. -/
theorem reserve_owner {next n t : Nat} {x : Buf} (h : (x.reserve next n).2.2.owner = some t) : (x.reserve next n).2.2 = x := by
  unfold Buf.reserve at h ⊢
  split
  · rfl
  · rename_i hc
    rw [if_neg hc] at h
    unfold Buf.realloc at h
    split at h
    · cases h
    · rename_i ho; rw [ho] at h; cases h

/-- `custom_free` is called for a buffer that has to grow. -/
theorem reserve_custom {next m t n : Nat} {d : Option Nat} {x : Buf} (h : .custom t d n ∈ (x.reserve next m).1) :
    x.owner = some t ∧ x.data = d ∧ x.cap = n ∧ x.cap < x.size + m := by
  unfold Buf.reserve at h
  split at h
  · cases h
  · rename_i hc
    unfold Buf.realloc at h
    split at h
    · rename_i t' ho
      unfold Buf.free at h
      rw [ho] at h
      simp only [List.mem_singleton, MemEvent.custom.injEq] at h
      obtain ⟨rfl, rfl, rfl⟩ := h
      exact ⟨ho, rfl, rfl, by omega⟩
    · rename_i ho
      unfold Buf.free at h
      rw [ho] at h
      cases hd : x.data <;> simp [hd] at h

theorem free_custom {t n : Nat} {d : Option Nat} {x : Buf} (h : .custom t d n ∈ x.free) : x.owner = some t ∧ x.data = d ∧ x.cap = n := by
  unfold Buf.free at h
  cases ho : x.owner with
  | some t' =>
    rw [ho] at h
    simp only [List.mem_singleton, MemEvent.custom.injEq] at h
    obtain ⟨rfl, rfl, rfl⟩ := h
    exact ⟨rfl, rfl, rfl⟩
  | none =>
    rw [ho] at h
    cases hd : x.data <;> simp [hd] at h

theorem finalize_owner {t : Nat} : (ps : List Slot) → (next : Nat) → (a : Arr) → (q : Slot) →
    ((finalize ps next a).2.2.bufs q).owner = some t → (finalize ps next a).2.2.bufs q = a.bufs q
  | [], _, _, _, _ => rfl
  | p :: ps, next, a, q, h => by
    have hset : ∀ x : Buf, (x.owner = some t → x = a.bufs p) → ((a.set p x).bufs q).owner = some t → (a.set p x).bufs q = a.bufs q := by
      intro x hx hq
      unfold Arr.set at hq ⊢
      dsimp only at hq ⊢
      split
      · rename_i e; rw [if_pos e] at hq; rw [e]; exact hx hq
      · rfl
    unfold finalize at h ⊢
    split
    · rename_i hd
      rw [if_pos hd] at h
      dsimp only at h ⊢
      split
      · rename_i hr
        rw [if_pos hr] at h
        have ih := finalize_owner ps _ _ q h
        dsimp only
        rw [ih]
        rw [ih] at h
        exact hset _ (fun ho => reserve_owner ho) h
      · rename_i hr
        rw [if_neg hr] at h
        exact hset _ (fun ho => reserve_owner ho) h
    · rename_i hd
      rw [if_neg hd] at h
      exact finalize_owner ps next a q h

theorem finalize_custom {t n : Nat} {d : Option Nat} : (ps : List Slot) → (next : Nat) → (a : Arr) → .custom t d n ∈ (finalize ps next a).1 →
    ∃ q, (a.bufs q).owner = some t ∧ (a.bufs q).data = d ∧ (a.bufs q).cap = n ∧ d = none
  | [], _, _, h => by cases h
  | p :: ps, next, a, h => by
    unfold finalize at h
    split at h
    · rename_i hd
      dsimp only at h
      have hfirst : .custom t d n ∈ ((a.bufs p).reserve next 1).1 → ∃ q, (a.bufs q).owner = some t ∧ (a.bufs q).data = d ∧ (a.bufs q).cap = n ∧ d = none := by
        intro h'
        obtain ⟨h1, h2, h3, -⟩ := reserve_custom h'
        exact ⟨p, h1, h2, h3, by rw [← h2]; exact hd⟩
      split at h
      · rcases List.mem_append.mp h with h | h
        · exact hfirst h
        · obtain ⟨q, h1, h2, h3, h4⟩ := finalize_custom ps _ _ h
          have he : (a.set p ((a.bufs p).reserve next 1).2.2).bufs q = a.bufs q := by
            unfold Arr.set at h1 ⊢
            dsimp only at h1 ⊢
            split
            · rename_i e; rw [if_pos e] at h1; rw [e]; exact reserve_owner h1
            · rfl
          rw [he] at h1 h2 h3
          exact ⟨q, h1, h2, h3, h4⟩
      · exact hfirst h
    · exact finalize_custom ps next a h

/-- Memory that is `NULL` and has an owner cannot be finished. -/
theorem finalize_fails {q : Slot} {t : Nat} : (ps : List Slot) → (next : Nat) → (a : Arr) → q ∈ ps → (a.bufs q).owner = some t →
    (a.bufs q).data = none → (a.bufs q).cap ≤ (a.bufs q).size → (finalize ps next a).2.1 = false
  | [], _, _, h, _, _, _ => by cases h
  | p :: ps, next, a, h, h1, h2, h3 => by
    unfold finalize
    by_cases hpq : q = p
    · subst hpq
      rw [if_pos h2]
      dsimp only
      have : ((a.bufs q).reserve next 1).2.1 = false := by
        unfold Buf.reserve
        rw [if_neg (by omega)]
        unfold Buf.realloc
        rw [h1]
      rw [this]
      rfl
    · have hm := (List.mem_cons.mp h).resolve_left hpq
      split
      · dsimp only
        split
        · dsimp only
          have he : (a.set p ((a.bufs p).reserve next 1).2.2).bufs q = a.bufs q := by unfold Arr.set; dsimp only; rw [if_neg hpq]
          exact finalize_fails ps _ _ hm (by rw [he]; exact h1) (by rw [he]; exact h2) (by rw [he]; exact h3)
        · rename_i hr
          simpa using hr
      · exact finalize_fails ps next a hm h1 h2 h3

end Verif.Own
