import Verif.Spec.Building
import Verif.Proof.DeepCopy
import Verif.Proof.WkbWriter
import Verif.Proof.Schema
/-! The geometry builder lays out what it is fed. -/
namespace Verif
open Spec

/-- A node under construction, apart from the block its pointers point into. -/
inductive ANode where
  | seq (gt : Nat) (d : Dims) (level start : Nat)
  | inner (gt : Nat) (d : Dims) (level : Nat)

def ANode.dims : ANode → Dims
  | .seq _ d _ _ => d
  | .inner _ d _ => d

def openNode (gt : Nat) (d : Dims) (level : Nat) : Node := { blankNode with gt := gt, dims := d.code, level := level }

def ANode.conc (blk : Nat) : ANode → Node
  | .seq gt d level start => seqNode (openNode gt d level) blk start d.n
  | .inner gt d level => openNode gt d level

theorem ANode.conc_dims (blk : Nat) (a : ANode) : (a.conc blk).dims = a.dims.code := by cases a <;> rfl

def layRings (d : Dims) (l : Nat) : List (List Coord) → Nat → List ANode
  | [], _ => []
  | r :: rs, off => .seq 2 d l off :: layRings d l rs (off + 8 * d.n * r.length)

mutual
def lay : Geom → (l off : Nat) → List ANode
  | .point d _, l, off => [.seq 1 d l off]
  | .linestring d _, l, off => [.seq 2 d l off]
  | .polygon d rs, l, off => .inner 3 d l :: layRings d (l + 1) rs off
  | .multi k d ps, l, off => .inner k.code d l :: layL ps (l + 1) off
def layL : List Geom → (l off : Nat) → List ANode
  | [], _, _ => []
  | g :: gs, l, off => lay g l off ++ layL gs l (off + (interleaved g.vertices).length)
end

theorem multiCode_range (k : MultiKind) : 4 ≤ k.code ∧ k.code ≤ 7 := by cases k <;> simp [MultiKind.code]

theorem interleaved_append (a b : List Coord) : interleaved (a ++ b) = interleaved a ++ interleaved b := by simp [interleaved]

/-! ## Moving blocks -/

theorem movePtr_blk {old : Nat} (new : Nat) (o : Int) (h : old ≠ 0) : movePtr old new ⟨old, o⟩ = some ⟨new, o⟩ := by
  simp [movePtr, emptyPtr, h]

theorem movePtr_empty (old new : Nat) : movePtr old new ⟨0, 0⟩ = some ⟨0, 0⟩ := rfl

theorem moveNode_conc {old : Nat} (new : Nat) (h : old ≠ 0) (a : ANode) : moveNode old new (a.conc old) = some (a.conc new) := by
  cases a with
  | inner gt d l => rfl
  | seq gt d l st =>
    cases d <;>
      simp [ANode.conc, seqNode, openNode, moveNode, Quad.ofFn, Quad.get, Dims.n, blankNode, movePtr_blk new _ h, movePtr_empty]

theorem moveNodes_conc {old : Nat} (new : Nat) (h : old ≠ 0) (as : List ANode) :
    moveNodes old new (as.map (ANode.conc old)) = some (as.map (ANode.conc new)) := by
  induction as with
  | nil => rfl
  | cons a as ih => simp [moveNodes, moveNode_conc new h, ih]

/-- The builder has laid out `as` with the coordinates `data` and has `l` levels open. -/
structure Laid (as : List ANode) (data : List Byte) (l : Nat) (b : GeomB) : Prop where
  nodes : b.nodes = as.map (ANode.conc b.blk)
  data : b.data = data
  level : b.level = l
  blk : b.blk ≠ 0
  next : b.next ≠ 0

theorem gbReserve_laid {as data l b} (h : Laid as data l b) (k : Int) :
    ∃ b', gbReserve k b = .ok () b' ∧ Laid as data l b' ∧ (data.length : Int) + k * 8 ≤ b'.cap := by
  unfold gbReserve
  split
  · rename_i hc
    rw [h.nodes, moveNodes_conc _ h.blk]
    refine ⟨_, rfl, ⟨rfl, h.data, h.level, h.next, Nat.succ_ne_zero _⟩, ?_⟩
    simp only []
    rw [h.data] at hc ⊢
    split <;> omega
  · rename_i hc
    refine ⟨b, rfl, h, ?_⟩
    rw [h.data] at hc
    omega

theorem Dims.code_small (d : Dims) : d.code % 256 = d.code := by cases d <;> rfl

theorem setLast_append (ns : List Node) (n n' : Node) : setLast (ns ++ [n]) n' = ns ++ [n'] := by simp [setLast]

theorem gbOpen_seq {as data l b} (h : Laid as data l b) (d : Dims) (gt : Nat) (hg : gt = 1 ∨ gt = 2) (hl : l ≤ 30) :
    ∃ b', gbGeomStart gt d.code b = .ok () b' ∧ Laid (as ++ [.seq gt d l data.length]) data (l + 1) b' := by
  have hgs : gt % 256 = gt := by omega
  unfold gbGeomStart
  rw [M.bind_run, M.modify_run]
  simp only [if_pos hg, numDimensions_code]
  let b1 : GeomB := { b with nodes := b.nodes ++ [openNode gt d l] }
  have hl1 : Laid (as ++ [.inner gt d l]) data l b1 :=
    ⟨by simp only [b1, List.map_append, h.nodes]; rfl, h.data, h.level, h.blk, h.next⟩
  obtain ⟨b2, hr, hl2, _⟩ := gbReserve_laid hl1 d.n
  have hb1 : { b with nodes := b.nodes ++ [{ blankNode with gt := gt % 256, dims := d.code % 256, level := b.level % 256 }] } = b1 := by
    simp only [b1, openNode, hgs, Dims.code_small, h.level, Nat.mod_eq_of_lt (show l < 256 by omega)]
  rw [hb1]
  have hn2 : b2.nodes = as.map (ANode.conc b2.blk) ++ [openNode gt d l] := by
    rw [hl2.nodes, List.map_append]; rfl
  let b3 : GeomB := { b2 with nodes := setLast b2.nodes (seqNode (b2.nodes.getLastD blankNode) b2.blk b2.data.length d.n) }
  have hn3 : b3.nodes = (as ++ [ANode.seq gt d l data.length]).map (ANode.conc b2.blk) := by
    simp only [b3]
    rw [hn2, setLast_append]
    simp [ANode.conc, hl2.data]
  refine ⟨{ b3 with level := b3.level + 1 }, ?_, ⟨hn3, hl2.data, by simp only [b3]; rw [hl2.level], hl2.blk, hl2.next⟩⟩
  refine (M.bind_ok hr).trans ?_
  have : b3.level = l := hl2.level
  rw [M.bind_run, M.modify_run]
  simp only []
  rw [M.bind_run, M.get_run]
  have hlv : ¬ b3.level = 31 := by omega
  show (if b3.level = 31 then M.fail EINVAL else _ : M GeomB Unit) b3 = _
  rw [if_neg hlv]
  rfl

theorem gbOpen_inner {as data l b} (h : Laid as data l b) (d : Dims) (gt : Nat) (hg : 3 ≤ gt ∧ gt ≤ 7) (hl : l ≤ 30) :
    ∃ b', gbGeomStart gt d.code b = .ok () b' ∧ Laid (as ++ [.inner gt d l]) data (l + 1) b' := by
  have hgs : gt % 256 = gt := by omega
  unfold gbGeomStart
  rw [M.bind_run, M.modify_run]
  simp only [if_neg (show ¬ (gt = 1 ∨ gt = 2) by omega)]
  rw [M.bind_run, M.get_run]
  simp only [h.level]
  rw [if_neg (by omega)]
  refine ⟨_, rfl, ⟨?_, h.data, rfl, h.blk, h.next⟩⟩
  simp only [List.map_append, h.nodes, hgs, Dims.code_small, Nat.mod_eq_of_lt (show l < 256 by omega)]
  rfl

theorem gbClose_laid {as data l b} (h : Laid as data (l + 1) b) : ∃ b', gbClose b = .ok () b' ∧ Laid as data l b' := by
  unfold gbClose
  rw [M.bind_run, M.get_run]
  simp only []
  rw [if_neg (by rw [h.level]; omega)]
  exact ⟨_, rfl, ⟨h.nodes, h.data, by simp [h.level], h.blk, h.next⟩⟩

theorem gbCoords_laid {as data l b} {d : Dims} {cs : List Coord} (h : Laid as data l b) (hne : as ≠ []) (hc : ∀ c ∈ cs, c.length = d.n) :
    ∃ b', gbCoords d.n cs b = .ok () b' ∧ Laid as (data ++ interleaved cs) l b' := by
  unfold gbCoords
  rw [M.bind_run, M.get_run]
  obtain ⟨b', hr, hl, hcap⟩ := gbReserve_laid h ((cs.length : Int) * d.n)
  have hlen := length_interleaved hc
  have hin : (cs.flatMap fun c => c.flatMap Dbl.bytes) = interleaved cs := rfl
  have hok : b'.data.length + (interleaved cs).length ≤ b'.cap := by
    rw [hl.data, hlen]
    have : (8 * d.n * cs.length : Nat) = cs.length * d.n * 8 := by
      rw [Nat.mul_comm (8 * d.n), Nat.mul_comm 8, Nat.mul_assoc]
    rw [this]
    have h2 := hcap
    rw [show (cs.length : Int) * d.n * 8 = ((cs.length * d.n * 8 : Nat) : Int) by simp] at h2
    omega
  cases hn : b.nodes with
  | nil => rw [h.nodes] at hn; simp at hn; exact absurd hn hne
  | cons n ns =>
    refine ⟨{ b' with data := b'.data ++ interleaved cs }, ?_, ⟨hl.nodes, by simp [hl.data], hl.level, hl.blk, hl.next⟩⟩
    dsimp only
    rw [hn]
    refine (M.bind_ok hr).trans ?_
    rw [hin, if_neg (by omega)]

theorem chunked_laid {as l} {d : Dims} (hne : as ≠ []) {chunks : List (List Coord)} : ∀ {data b}, Laid as data l b →
    (∀ ch ∈ chunks, ∀ c ∈ ch, c.length = d.n) →
    ∃ b', feed geomBuilder (chunks.map (Event.coords d.n)) b = .ok () b' ∧ Laid as (data ++ interleaved chunks.flatten) l b' := by
  induction chunks with
  | nil => intro data b h _; exact ⟨b, rfl, by simpa [interleaved] using h⟩
  | cons ch chs ih =>
    intro data b h hc
    obtain ⟨b1, h1, l1⟩ := gbCoords_laid h hne (hc ch (by simp))
    obtain ⟨b2, h2, l2⟩ := ih l1 (fun x hx => hc x (by simp [hx]))
    refine ⟨b2, ?_, ?_⟩
    · rw [List.map_cons, feed_cons_ok (show geomBuilder (.coords d.n ch) b = .ok () b1 from h1), h2]
    · rw [List.flatten_cons, interleaved_append, ← List.append_assoc]; exact l2

theorem seq_laid {as l data b} {d : Dims} (hne : as ≠ []) (h : Laid as data l b) {cs : List Coord} {t : List Event}
    (hc : ∀ c ∈ cs, c.length = d.n) (ht : Chunked d.n cs t) :
    ∃ b', feed geomBuilder t b = .ok () b' ∧ Laid as (data ++ interleaved cs) l b' := by
  obtain ⟨chunks, rfl, rfl⟩ := ht
  exact chunked_laid hne h (fun ch hch c hc' => hc c (List.mem_flatten.mpr ⟨ch, hch, hc'⟩))

theorem rings_laid {l} {d : Dims} (hl : l ≤ 29) {rs : List (List Coord)} : ∀ {as : List ANode} {data b t}, Laid as data (l + 1) b →
    (∃ a, as.getLast? = some a ∧ a.dims = d) → (∀ r ∈ rs, ∀ c ∈ r, c.length = d.n) → RingsTrace d.n rs t →
    ∃ b', feed geomBuilder t b = .ok () b' ∧
      Laid (as ++ layRings d (l + 1) rs data.length) (data ++ interleaved rs.flatten) (l + 1) b' := by
  induction rs with
  | nil =>
    intro as data b t h _ _ ht
    simp only [RingsTrace] at ht
    subst ht
    exact ⟨b, rfl, by simpa [interleaved, layRings] using h⟩
  | cons r rs ih =>
    intro as data b t h hlast hc ht
    obtain ⟨t1, t2, hc1, hr2, rfl⟩ := ht
    obtain ⟨a, hal, had⟩ := hlast
    obtain ⟨b1, h1, l1⟩ := gbOpen_seq h d 2 (.inr rfl) (show l + 1 ≤ 30 by omega)
    obtain ⟨b2, h2, l2⟩ := seq_laid (by simp) l1 (hc r (by simp)) hc1
    obtain ⟨b3, h3, l3⟩ := gbClose_laid l2
    obtain ⟨b4, h4, l4⟩ := ih l3 ⟨.seq 2 d (l + 1) data.length, by simp, rfl⟩ (fun x hx => hc x (by simp [hx])) hr2
    have hlen := length_interleaved (hc r (by simp))
    refine ⟨b4, ?_, ?_⟩
    · have hrs : geomBuilder .ringStart b = .ok () b1 := by
        show gbRingStart b = _
        unfold gbRingStart
        rw [M.bind_run, M.get_run]
        have : b.nodes.getLast? = some (a.conc b.blk) := by rw [h.nodes, List.getLast?_map, hal]; rfl
        simp only [this, ANode.conc_dims, had]
        exact h1
      rw [List.cons_append, feed_cons_ok hrs, feed_append_ok h2, feed_cons_ok (show geomBuilder .ringEnd b2 = .ok () b3 from h3), h4]
    · simp only [layRings, List.flatten_cons, interleaved_append]
      simpa [hlen, List.append_assoc] using l4

mutual
theorem geom_laid : ∀ (g : Geom) {l as data b t}, Laid as data l b → g.WF → l + g.height ≤ 30 → g.Trace t →
    ∃ b', feed geomBuilder t b = .ok () b' ∧ Laid (as ++ lay g l data.length) (data ++ interleaved g.vertices) l b'
  | .point d cs, l, as, data, b, t, h, hw, hh, ht => by
    obtain ⟨bd, hb, rfl⟩ := ht
    simp only [Geom.height] at hh
    obtain ⟨b1, h1, l1⟩ := gbOpen_seq h d 1 (.inl rfl) (by omega)
    obtain ⟨b2, h2, l2⟩ := seq_laid (by simp) l1 hw hb
    obtain ⟨b3, h3, l3⟩ := gbClose_laid l2
    refine ⟨b3, ?_, l3⟩
    rw [List.cons_append, feed_cons_ok (show geomBuilder (.geomStart 1 d.code) b = .ok () b1 from h1), feed_append_ok h2,
      feed_cons_ok (show geomBuilder .geomEnd b2 = .ok () b3 from h3)]
    rfl
  | .linestring d cs, l, as, data, b, t, h, hw, hh, ht => by
    obtain ⟨bd, hb, rfl⟩ := ht
    simp only [Geom.height] at hh
    obtain ⟨b1, h1, l1⟩ := gbOpen_seq h d 2 (.inr rfl) (by omega)
    obtain ⟨b2, h2, l2⟩ := seq_laid (by simp) l1 hw hb
    obtain ⟨b3, h3, l3⟩ := gbClose_laid l2
    refine ⟨b3, ?_, l3⟩
    rw [List.cons_append, feed_cons_ok (show geomBuilder (.geomStart 2 d.code) b = .ok () b1 from h1), feed_append_ok h2,
      feed_cons_ok (show geomBuilder .geomEnd b2 = .ok () b3 from h3)]
    rfl
  | .polygon d rs, l, as, data, b, t, h, hw, hh, ht => by
    obtain ⟨bd, hb, rfl⟩ := ht
    simp only [Geom.height] at hh
    obtain ⟨b1, h1, l1⟩ := gbOpen_inner h d 3 (by omega) (by omega)
    obtain ⟨b2, h2, l2⟩ := rings_laid (d := d) (by omega) l1 ⟨.inner 3 d l, by simp, rfl⟩ hw hb
    obtain ⟨b3, h3, l3⟩ := gbClose_laid l2
    refine ⟨b3, ?_, by simpa [lay, Geom.vertices] using l3⟩
    rw [List.cons_append, feed_cons_ok (show geomBuilder (.geomStart 3 d.code) b = .ok () b1 from h1), feed_append_ok h2,
      feed_cons_ok (show geomBuilder .geomEnd b2 = .ok () b3 from h3)]
    rfl
  | .multi k d ps, l, as, data, b, t, h, hw, hh, ht => by
    obtain ⟨bd, hb, rfl⟩ := ht
    simp only [Geom.height] at hh
    have hk := multiCode_range k
    obtain ⟨b1, h1, l1⟩ := gbOpen_inner h d k.code (by omega) (by omega)
    obtain ⟨b2, h2, l2⟩ := geoms_laid ps l1 hw (by omega) hb
    obtain ⟨b3, h3, l3⟩ := gbClose_laid l2
    refine ⟨b3, ?_, by simpa [lay, Geom.vertices] using l3⟩
    rw [List.cons_append, feed_cons_ok (show geomBuilder (.geomStart k.code d.code) b = .ok () b1 from h1), feed_append_ok h2,
      feed_cons_ok (show geomBuilder .geomEnd b2 = .ok () b3 from h3)]
    rfl
theorem geoms_laid : ∀ (gs : List Geom) {l as data b t}, Laid as data l b → Geom.WFL gs → l + Geom.heightL gs ≤ 30 → Geom.TraceL gs t →
    ∃ b', feed geomBuilder t b = .ok () b' ∧ Laid (as ++ layL gs l data.length) (data ++ interleaved (Geom.verticesL gs)) l b'
  | [], l, as, data, b, t, h, hw, hh, ht => by
    simp only [Geom.TraceL] at ht
    subst ht
    exact ⟨b, rfl, by simpa [interleaved, layL, Geom.verticesL] using h⟩
  | g :: gs, l, as, data, b, t, h, hw, hh, ht => by
    obtain ⟨t1, t2, h1, h2, rfl⟩ := ht
    simp only [Geom.heightL] at hh
    obtain ⟨b1, e1, l1⟩ := geom_laid g h hw.1 (by omega) h1
    obtain ⟨b2, e2, l2⟩ := geoms_laid gs l1 hw.2 (by omega) h2
    refine ⟨b2, by rw [feed_append_ok e1, e2], ?_⟩
    simp only [layL, Geom.verticesL, interleaved_append]
    simpa [List.append_assoc] using l2
end

/-! ## Setting the sizes -/

theorem rollNodes_append (a b : List Node) (st : RollSt) : rollNodes (a ++ b) st =
    match rollNodes b st with
    | none => none
    | some (b', st') => match rollNodes a st' with
      | none => none
      | some (a', st'') => some (a' ++ b', st'') := by
  induction a with
  | nil => simp only [List.nil_append, rollNodes]; cases rollNodes b st <;> rfl
  | cons x a ih =>
    simp only [List.cons_append, rollNodes, ih]
    cases rollNodes b st with
    | none => rfl
    | some p =>
      obtain ⟨b', st'⟩ := p
      simp only []
      cases rollNodes a st' with
      | none => rfl
      | some q =>
        obtain ⟨a', st''⟩ := q
        simp only []
        cases rollNode x st'' with
        | none => rfl
        | some r => rfl

/-- One more at a level. -/
def bump (sizes : Nat → Nat) (l k : Nat) : Nat → Nat := fun j => if j = l then sizes l + k else sizes j

theorem bump_zero (sizes : Nat → Nat) (l : Nat) : bump sizes l 0 = sizes := by
  funext j
  simp only [bump]
  split
  · rename_i h; rw [h]; rfl
  · rfl

theorem bump_bump (sizes : Nat → Nat) (l a b : Nat) : bump (bump sizes l a) l b = bump sizes l (a + b) := by
  funext j
  simp only [bump, if_pos]
  split <;> omega

theorem rollSeq {gt : Nat} {d : Dims} {l off : Nat} {blk : Nat} {cs : List Coord} {sizes : Nat → Nat} (hg : gt = 1 ∨ gt = 2)
    (hl : l ≤ 31) (hs : sizes l + 1 < 2 ^ 32) (hc : ∀ c ∈ cs, c.length = d.n) (hlen : cs.length < 2 ^ 32) :
    ∃ n, rollNode ((ANode.seq gt d l off).conc blk) ⟨⟨blk, off + 8 * d.n * cs.length⟩, sizes⟩ = some (n, ⟨⟨blk, off⟩, bump sizes l 1⟩) ∧
      n.gt = gt ∧ ∀ (m : Mem) (pre post : List Byte), m blk = pre ++ interleaved cs ++ post → pre.length = off → SeqDenotes m n d cs := by
  have hn := Dims.n_pos d
  have hnz : (0 : Int) < d.n := by omega
  have e1 : ((ANode.seq gt d l off).conc blk).gt = gt := rfl
  have e2 : ((ANode.seq gt d l off).conc blk).level = l := rfl
  have e3 : ((ANode.seq gt d l off).conc blk).coords.a = ⟨blk, off⟩ := by
    simp [ANode.conc, seqNode, Quad.ofFn, show 0 < d.n by omega]
  have e4 : ((ANode.seq gt d l off).conc blk).stride.a = d.n * 8 := by
    simp [ANode.conc, seqNode, Quad.ofFn, show 0 < d.n by omega]
  have hsz : (((off : Int) + 8 * d.n * cs.length - off).tdiv (d.n * 8) % 4294967296).toNat = cs.length := by
    have : ((off : Int) + 8 * d.n * cs.length - off) = cs.length * (d.n * 8) := by
      rw [Int.mul_comm (cs.length : Int), Int.mul_comm (d.n : Int) 8]; omega
    rw [this, Int.mul_tdiv_cancel _ (by omega)]
    omega
  refine ⟨{ (ANode.seq gt d l off).conc blk with size := cs.length }, ?_, rfl, ?_⟩
  · unfold rollNode
    rw [e1, e2, e3, e4]
    simp only []
    rw [if_neg (by omega), if_pos hg, if_neg (by simp; omega), hsz]
    congr 2
    congr 1
    funext j
    simp only [bump]
    split
    · rename_i h; rw [h, u32_of_lt hs]
    · rfl
  · intro m pre post hm hp
    exact seqDenotes_slice (node := { openNode gt d l with size := cs.length }) hm hp hc hlen rfl rfl rfl

theorem rollRings {d : Dims} {l : Nat} {blk : Nat} (hl : l ≤ 31) {rs : List (List Coord)} : ∀ {off : Nat} {sizes : Nat → Nat},
    sizes l + rs.length < 2 ^ 32 → (∀ r ∈ rs, ∀ c ∈ r, c.length = d.n) → (∀ r ∈ rs, r.length < 2 ^ 32) →
    ∃ ns, rollNodes ((layRings d l rs off).map (ANode.conc blk)) ⟨⟨blk, off + (interleaved rs.flatten).length⟩, sizes⟩ =
        some (ns, ⟨⟨blk, off⟩, bump sizes l rs.length⟩) ∧
      ∀ (m : Mem) (pre post : List Byte), m blk = pre ++ interleaved rs.flatten ++ post → pre.length = off → RingsDenote m d rs ns := by
  induction rs with
  | nil =>
    intro off sizes _ _ _
    refine ⟨[], ?_, fun _ _ _ _ _ => rfl⟩
    simp [layRings, rollNodes, interleaved, bump_zero]
  | cons r rs ih =>
    intro off sizes hs hc hr
    simp only [List.length_cons] at hs
    obtain ⟨ns, h1, h2⟩ := ih (off := off + 8 * d.n * r.length) (sizes := sizes) (by omega) (fun x hx => hc x (by simp [hx]))
      (fun x hx => hr x (by simp [hx]))
    have hlen := length_interleaved (hc r (by simp))
    obtain ⟨n, h3, h4, h5⟩ := rollSeq (gt := 2) (l := l) (off := off) (blk := blk) (sizes := bump sizes l rs.length) (.inr rfl) hl
      (by simp only [bump, if_pos]; omega) (hc r (by simp)) (hr r (by simp))
    refine ⟨n :: ns, ?_, ?_⟩
    · simp only [layRings, List.map_cons, rollNodes, List.flatten_cons, interleaved_append, List.length_append, hlen]
      have e : (off : Int) + ((8 * d.n * r.length + (interleaved rs.flatten).length : Nat) : Int) =
          ((off + 8 * d.n * r.length : Nat) : Int) + (interleaved rs.flatten).length := by omega
      rw [e, h1]
      simp only []
      have e' : ((off + 8 * d.n * r.length : Nat) : Int) = (off : Int) + 8 * d.n * r.length := by simp
      rw [e', h3, bump_bump]
      rfl
    · intro m pre post hm hp
      simp only [List.flatten_cons, interleaved_append] at hm
      refine ⟨n, ns, rfl, h4, h5 m pre (interleaved rs.flatten ++ post) (by rw [hm]; simp) hp, ?_⟩
      exact h2 m (pre ++ interleaved r) post (by rw [hm]; simp) (by simp [hp, hlen])

theorem rollInner {gt : Nat} {d : Dims} {l blk : Nat} {fin : Ptr} {sizes : Nat → Nat} (k : Nat) (hg : 3 ≤ gt ∧ gt ≤ 7) (hl : l ≤ 30)
    (hs : sizes l + 1 < 2 ^ 32) (h0 : sizes (l + 1) = 0) :
    rollNode ((ANode.inner gt d l).conc blk) ⟨fin, bump sizes (l + 1) k⟩ =
      some ({ openNode gt d l with size := k }, ⟨fin, bump sizes l 1⟩) := by
  unfold rollNode
  have e1 : ((ANode.inner gt d l).conc blk).gt = gt := rfl
  have e2 : ((ANode.inner gt d l).conc blk).level = l := rfl
  rw [e1, e2]
  simp only []
  rw [if_neg (by omega), if_neg (by omega), if_pos hg, if_neg (by omega)]
  congr 2
  · simp only [ANode.conc, bump]
    rw [if_neg (by omega), if_pos trivial, h0, Nat.zero_add]
    rfl
  · congr 1
    funext j
    simp only [bump]
    by_cases h1 : j = l + 1
    · rw [if_pos h1, if_neg (by omega), h1, h0]
    · rw [if_neg h1]
      by_cases h2 : j = l
      · rw [if_pos h2, if_pos h2, h2, if_neg (by omega), u32_of_lt hs]
      · rw [if_neg h2, if_neg h2, if_neg h1]

mutual
theorem rollGeom {blk : Nat} : ∀ (g : Geom) {l off : Nat} {sizes : Nat → Nat}, g.WF → g.Fits → l + g.height ≤ 30 →
    sizes l + 1 < 2 ^ 32 → (∀ j, l < j → sizes j = 0) →
    ∃ ns, rollNodes ((lay g l off).map (ANode.conc blk)) ⟨⟨blk, off + (interleaved g.vertices).length⟩, sizes⟩ =
        some (ns, ⟨⟨blk, off⟩, bump sizes l 1⟩) ∧
      ∀ (m : Mem) (pre post : List Byte), m blk = pre ++ interleaved g.vertices ++ post → pre.length = off → g.Denoted m ns
  | .point d cs, l, off, sizes, hw, hf, hh, hs, h0 => by
    simp only [Geom.height] at hh
    obtain ⟨n, h1, h2, h3⟩ := rollSeq (gt := 1) (l := l) (off := off) (blk := blk) (sizes := sizes) (.inl rfl) (by omega) hs hw hf
    refine ⟨[n], ?_, fun m pre post hm hp => ⟨n, rfl, h2, h3 m pre post hm hp⟩⟩
    simp only [lay, List.map_cons, List.map_nil, rollNodes, Geom.vertices, length_interleaved hw]
    rw [show (off : Int) + ((8 * d.n * cs.length : Nat) : Int) = (off : Int) + 8 * d.n * cs.length by simp, h1]
  | .linestring d cs, l, off, sizes, hw, hf, hh, hs, h0 => by
    simp only [Geom.height] at hh
    obtain ⟨n, h1, h2, h3⟩ := rollSeq (gt := 2) (l := l) (off := off) (blk := blk) (sizes := sizes) (.inr rfl) (by omega) hs hw hf
    refine ⟨[n], ?_, fun m pre post hm hp => ⟨n, rfl, h2, h3 m pre post hm hp⟩⟩
    simp only [lay, List.map_cons, List.map_nil, rollNodes, Geom.vertices, length_interleaved hw]
    rw [show (off : Int) + ((8 * d.n * cs.length : Nat) : Int) = (off : Int) + 8 * d.n * cs.length by simp, h1]
  | .polygon d rs, l, off, sizes, hw, hf, hh, hs, h0 => by
    simp only [Geom.height] at hh
    obtain ⟨ns, h1, h2⟩ := rollRings (d := d) (l := l + 1) (blk := blk) (rs := rs) (by omega) (off := off) (sizes := sizes)
      (by rw [h0 _ (by omega)]; have := hf.1; omega) hw hf.2
    refine ⟨{ openNode 3 d l with size := rs.length } :: ns, ?_, ?_⟩
    · simp only [lay, List.map_cons, rollNodes, Geom.vertices]
      rw [h1]
      simp only []
      rw [rollInner rs.length (by omega) (by omega) hs (h0 _ (by omega))]
    · exact fun m pre post hm hp => ⟨_, ns, rfl, rfl, rfl, rfl, hf.1, h2 m pre post hm hp⟩
  | .multi k d ps, l, off, sizes, hw, hf, hh, hs, h0 => by
    simp only [Geom.height] at hh
    have hk := multiCode_range k
    obtain ⟨ns, h1, h2⟩ := rollGeoms (blk := blk) ps (l := l + 1) (off := off) (sizes := sizes) hw hf.2 (by omega)
      (by rw [h0 _ (by omega)]; have := hf.1; omega) (fun j hj => h0 j (by omega))
    refine ⟨{ openNode k.code d l with size := ps.length } :: ns, ?_, ?_⟩
    · simp only [lay, List.map_cons, rollNodes, Geom.vertices]
      rw [h1]
      simp only []
      rw [rollInner ps.length (by omega) (by omega) hs (h0 _ (by omega))]
    · exact fun m pre post hm hp => ⟨_, ns, rfl, rfl, rfl, rfl, hf.1, h2 m pre post hm hp⟩
theorem rollGeoms {blk : Nat} : ∀ (gs : List Geom) {l off : Nat} {sizes : Nat → Nat}, Geom.WFL gs → Geom.FitsL gs →
    l + Geom.heightL gs ≤ 30 → sizes l + gs.length < 2 ^ 32 → (∀ j, l < j → sizes j = 0) →
    ∃ ns, rollNodes ((layL gs l off).map (ANode.conc blk)) ⟨⟨blk, off + (interleaved (Geom.verticesL gs)).length⟩, sizes⟩ =
        some (ns, ⟨⟨blk, off⟩, bump sizes l gs.length⟩) ∧
      ∀ (m : Mem) (pre post : List Byte), m blk = pre ++ interleaved (Geom.verticesL gs) ++ post → pre.length = off →
        Geom.DenotedL m gs ns
  | [], l, off, sizes, hw, hf, hh, hs, h0 => by
    refine ⟨[], ?_, fun _ _ _ _ _ => rfl⟩
    simp [layL, rollNodes, interleaved, Geom.verticesL, bump_zero]
  | g :: gs, l, off, sizes, hw, hf, hh, hs, h0 => by
    simp only [Geom.heightL] at hh
    simp only [List.length_cons] at hs
    obtain ⟨ns2, h1, h2⟩ := rollGeoms (blk := blk) gs (l := l) (off := off + (interleaved g.vertices).length) (sizes := sizes) hw.2 hf.2
      (by omega) (by omega) h0
    obtain ⟨ns1, h3, h4⟩ := rollGeom (blk := blk) g (l := l) (off := off) (sizes := bump sizes l gs.length) hw.1 hf.1 (by omega)
      (by simp only [bump, if_pos]; omega) (fun j hj => by simp only [bump]; rw [if_neg (by omega)]; exact h0 j hj)
    refine ⟨ns1 ++ ns2, ?_, ?_⟩
    · simp only [layL, List.map_append, rollNodes_append, Geom.verticesL, interleaved_append, List.length_append]
      have e : (off : Int) + (((interleaved g.vertices).length + (interleaved (Geom.verticesL gs)).length : Nat) : Int) =
          ((off + (interleaved g.vertices).length : Nat) : Int) + (interleaved (Geom.verticesL gs)).length := by omega
      rw [e, h1]
      simp only []
      rw [Int.natCast_add, h3]
      simp only [bump_bump, List.length_cons]
    · intro m pre post hm hp
      simp only [Geom.verticesL, interleaved_append] at hm
      refine ⟨ns1, ns2, rfl, h4 m pre (interleaved (Geom.verticesL gs) ++ post) (by rw [hm]; simp) hp, ?_⟩
      exact h2 m (pre ++ interleaved g.vertices) post (by rw [hm]; simp) (by simp [hp])
end

end Verif
