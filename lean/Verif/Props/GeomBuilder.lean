import Verif.Proof.GeomBuilderSafe
import Verif.Props.WkbWriter
/-!
# C30 and C31: owning geometries
-/
namespace Verif
open Spec

/-- Owning geometries a program can have: new ones, and whatever callbacks (successful or not) and deep copies make of them. -/
inductive GeomReached : GeomB → Prop where
  | init : GeomReached geomInit
  | callback {b b' : GeomB} {e : Event} : GeomReached b → geomBuilder e b = .ok () b' → GeomReached b'
  | failed {b b' : GeomB} {e : Event} {rc : Code} : GeomReached b → geomBuilder e b = .err rc b' → GeomReached b'
  | copied {b b' : GeomB} {m : Mem} {src : View} : GeomReached b → deepCopy m src b = .ok () b' → GeomReached b'

/-- Blocks of owning geometries differ from the block of the constant. -/
def BlocksOk (b : GeomB) : Prop := b.blk ≠ 0 ∧ b.next ≠ 0

theorem gbReserve_blocks {k : Int} {b : GeomB} (h : BlocksOk b) : ∀ b', (gbReserve k b = .ok () b' ∨ ∃ rc, gbReserve k b = .err rc b') → BlocksOk b' := by
  intro b' hb
  unfold gbReserve at hb
  split at hb
  · cases hm : moveNodes b.blk b.next b.nodes with
    | none => simp [hm] at hb
    | some ns =>
      simp [hm] at hb
      subst hb
      exact ⟨h.2, Nat.succ_ne_zero _⟩
  · simp at hb
    subst hb
    exact h

/-- `P` holds of the state after the run, whatever the result. -/
def Keeps (P : GeomB → Prop) (r : Res GeomB Unit) : Prop :=
  match r with
  | .ok _ s => P s
  | .err _ s => P s
  | .ub => True

theorem keeps_bind {P : GeomB → Prop} {m : M GeomB Unit} {f : Unit → M GeomB Unit} {s : GeomB} (h : Keeps P (m s)) (hf : ∀ s', P s' → Keeps P (f () s')) :
    Keeps P ((m >>= f) s) := by
  rw [M.bind_run]
  cases hm : m s with
  | ok a s' => cases a; rw [hm] at h; exact hf s' h
  | err rc s' => rw [hm] at h; exact h
  | ub => trivial

theorem gbReserve_keeps {k : Int} {b : GeomB} (h : BlocksOk b) : Keeps BlocksOk (gbReserve k b) := by
  have := gbReserve_blocks (k := k) h
  cases hr : gbReserve k b with
  | ok a s => cases a; exact this s (.inl hr)
  | err rc s => exact this s (.inr ⟨rc, hr⟩)
  | ub => trivial

theorem gbGeomStart_keeps {gt dims : Nat} {b : GeomB} (h : BlocksOk b) : Keeps BlocksOk (gbGeomStart gt dims b) := by
  unfold gbGeomStart
  refine keeps_bind (m := M.modify _) (by exact h) (fun b h => ?_)
  have tail : ∀ b, BlocksOk b → Keeps BlocksOk ((do
      let b ← M.get
      if b.level = 31 then M.fail EINVAL
      else M.modify fun b => { b with level := b.level + 1 } : M GeomB Unit) b) := by
    intro b h
    rw [M.bind_run, M.get_run]
    dsimp only
    split
    · exact h
    · exact h
  split
  · cases hd : numDimensions dims with
    | none => trivial
    | some nv =>
      refine keeps_bind (gbReserve_keeps h) (fun b h => ?_)
      refine keeps_bind (m := M.modify _) (by exact h) (fun b h => ?_)
      exact tail b h
  · exact tail b h

theorem geomBuilder_keeps {e : Event} {b : GeomB} (h : BlocksOk b) : Keeps BlocksOk (geomBuilder e b) := by
  have close : Keeps BlocksOk (gbClose b) := by
    unfold gbClose
    rw [M.bind_run, M.get_run]
    dsimp only
    split
    · exact h
    · exact h
  cases e with
  | featStart => exact h
  | nullFeat => exact h
  | geomStart gt dims => exact gbGeomStart_keeps h
  | ringEnd => exact close
  | geomEnd => exact close
  | ringStart =>
    show Keeps _ (gbRingStart b)
    unfold gbRingStart
    rw [M.bind_run, M.get_run]
    dsimp only
    cases b.nodes.getLast? with
    | none => exact h
    | some l => exact gbGeomStart_keeps h
  | coords nv cs =>
    show Keeps _ (gbCoords nv cs b)
    unfold gbCoords
    rw [M.bind_run, M.get_run]
    dsimp only
    cases b.nodes with
    | nil => exact h
    | cons n ns =>
      refine keeps_bind (gbReserve_keeps h) (fun b h => ?_)
      split
      · trivial
      · exact h
  | featEnd =>
    show Keeps _ (gbFeatEnd b)
    unfold gbFeatEnd
    split
    · exact h
    · split
      · exact h
      · split
        · trivial
        · exact h

theorem reached_blocks {b : GeomB} (h : GeomReached b) : BlocksOk b := by
  induction h with
  | init => exact ⟨by decide, by decide⟩
  | @callback _ _ e _ he ih => have := geomBuilder_keeps (e := e) ih; rw [he] at this; exact this
  | @failed _ _ e _ _ he ih => have := geomBuilder_keeps (e := e) ih; rw [he] at this; exact this
  | copied _ he ih =>
    unfold deepCopy at he
    split at he
    · simp at he
    · dsimp only at he
      split at he
      · simp at he
      · simp only [Res.ok.injEq, true_and] at he
        subst he
        refine ⟨?_, ?_⟩
        · dsimp only; split
          · exact ih.2
          · exact ih.1
        · dsimp only; split
          · exact Nat.succ_ne_zero _
          · exact ih.2

/-! ## C30 -/

mutual
theorem vertices_wf : ∀ (g : Geom), g.WF → ∀ c ∈ g.vertices, 2 ≤ c.length
  | .point d cs, h, c, hc => by rw [h c hc]; exact (Dims.n_pos d).1
  | .linestring d cs, h, c, hc => by rw [h c hc]; exact (Dims.n_pos d).1
  | .polygon d rs, h, c, hc => by
    obtain ⟨r, hr, hc⟩ := List.mem_flatten.mp hc
    rw [h r hr c hc]; exact (Dims.n_pos d).1
  | .multi k d ps, h, c, hc => verticesL_wf ps h c hc
theorem verticesL_wf : ∀ (gs : List Geom), Geom.WFL gs → ∀ c ∈ Geom.verticesL gs, 2 ≤ c.length
  | [], _, c, hc => by simp [Geom.verticesL] at hc
  | g :: gs, h, c, hc => by
    rcases List.mem_append.mp hc with hc | hc
    · exact vertices_wf g h.1 c hc
    · exact verticesL_wf gs h.2 c hc
end

theorem interleaved_nil {cs : List Coord} (h : ∀ c ∈ cs, 2 ≤ c.length) (he : (interleaved cs).length = 0) : cs = [] := by
  cases cs with
  | nil => rfl
  | cons c cs =>
    exfalso
    have h2 := h c (by simp)
    cases c with
    | nil => simp at h2
    | cons v c => simp [interleaved] at he

/-- State before the end of the feature. -/
theorem fed_feature {g : Geom} {b : GeomB} (hb : BlocksOk b) (hw : g.WF) (hh : g.height ≤ 30) {t : List Event} (ht : g.Trace t) :
    ∃ b1, feed geomBuilder (.featStart :: t) b = .ok () b1 ∧ Laid (lay g 0 0) (interleaved g.vertices) 0 b1 := by
  have h0 : Laid [] [] 0 { b with nodes := [], data := [], level := 0 } := ⟨rfl, rfl, rfl, hb.1, hb.2⟩
  obtain ⟨b1, h1, l1⟩ := geom_laid g h0 hw (by omega) ht
  exact ⟨b1, by rw [feed_cons_ok (s' := { b with nodes := [], data := [], level := 0 }) rfl, h1], by simpa using l1⟩

/-- Feeding the callbacks of a feature, however its coordinates are divided over calls, into an owning geometry, whatever
happened to it before, succeeds; the result denotes exactly that feature's geometry, and visiting it makes the callbacks of
the same geometry. Holds for every geometry up to the nesting limit (31 levels), with any number of coordinates per point,
mixed dimensions, empty parts and so on.

Partial: geometries that have members or rings but not a single coordinate are left out, see `C30_nested_empties_lost`. -/
theorem C30_build_partial {g : Geom} {b : GeomB} (hb : GeomReached b) (hw : g.WF) (hf : g.Fits) (hh : g.height ≤ 30)
    (hne : g.vertices ≠ [] ∨ g.memberCount = 0) {t : List Event} (ht : FeatureTrace g t) :
    ∃ b', feed geomBuilder t b = .ok () b' ∧ ViewDenotes b'.mem b'.view g ∧
      ∃ t', FeatureTrace g t' ∧ Behaves (fun _ h => viewVisit b'.mem h b'.view) t' (.done ()) := by
  obtain ⟨tb, htb, rfl⟩ := ht
  obtain ⟨b1, h1, l1⟩ := fed_feature (reached_blocks hb) hw hh htb
  have main : ∃ b', gbFeatEnd b1 = .ok () b' ∧ ViewDenotes b'.mem b'.view g := by
    have hnn : ∃ n ns, b1.nodes = n :: ns := by
      rw [l1.nodes]
      cases g <;> exact ⟨_, _, rfl⟩
    obtain ⟨n, ns, hn⟩ := hnn
    unfold gbFeatEnd
    rw [hn]
    dsimp only
    rw [← hn, l1.data]
    by_cases hz : (interleaved g.vertices).length = 0
    · rw [if_pos hz]
      have hv := interleaved_nil (vertices_wf g hw) hz
      have hm := hne.resolve_left (fun h => h hv)
      refine ⟨b1, rfl, ?_⟩
      unfold ViewDenotes
      rw [show b1.view.nodes = _ from l1.nodes]
      cases g with
      | point d cs =>
        simp only [Geom.vertices] at hv
        subst hv
        refine ⟨_, rfl, rfl, rfl, rfl, by decide, by simp, fun i j c v hc => by simp at hc⟩
      | linestring d cs =>
        simp only [Geom.vertices] at hv
        subst hv
        refine ⟨_, rfl, rfl, rfl, rfl, by decide, by simp, fun i j c v hc => by simp at hc⟩
      | polygon d rs =>
        simp only [Geom.memberCount, List.length_eq_zero_iff] at hm
        subst hm
        exact ⟨_, [], rfl, rfl, rfl, rfl, by decide, rfl⟩
      | multi k d ps =>
        simp only [Geom.memberCount, List.length_eq_zero_iff] at hm
        subst hm
        exact ⟨_, [], rfl, rfl, rfl, rfl, by decide, rfl⟩
    · rw [if_neg hz]
      obtain ⟨ns', r1, r2⟩ := rollGeom (blk := b1.blk) g (l := 0) (off := 0) (sizes := fun _ => 0) hw hf (by omega) (by decide) (fun _ _ => rfl)
      rw [l1.nodes]
      rw [show ((0 : Nat) : Int) + ((interleaved g.vertices).length : Int) = ((interleaved g.vertices).length : Int) by omega] at r1
      rw [r1]
      refine ⟨_, rfl, ?_⟩
      refine r2 _ [] [] ?_ rfl
      simp [GeomB.mem, l1.blk]
  obtain ⟨b', h2, hd⟩ := main
  refine ⟨b', ?_, hd, behaves_view hd⟩
  rw [feed_append_ok h1, feed_cons_ok (show geomBuilder .featEnd b1 = .ok () b' from h2)]
  rfl

theorem exGeom_fits : exGeom.Fits := by simp [exGeom, Geom.Fits, Geom.FitsL, exCoords]

/-- GEOMETRYCOLLECTION (POINT (1 2), POLYGON ((1 2, 3 4, 1 2)), MULTIPOINT EMPTY) into a new geometry. -/
example {t : List Event} (ht : FeatureTrace exGeom t) : ∃ b', feed geomBuilder t geomInit = .ok () b' ∧ ViewDenotes b'.mem b'.view exGeom := by
  obtain ⟨b', h1, h2, _⟩ := C30_build_partial .init exGeom_wf exGeom_fits (by decide) (.inl (by simp [exGeom, Geom.vertices, Geom.verticesL])) ht
  exact ⟨b', h1, h2⟩

/-- The same geometry without its members. -/
def Geom.shell : Geom → Geom
  | .point d cs => .point d cs
  | .linestring d cs => .linestring d cs
  | .polygon d _ => .polygon d []
  | .multi k d _ => .multi k d []

/-- Defect: a geometry with members or rings but without a single coordinate, such as `MULTIPOINT (EMPTY)` or a polygon with
one empty ring, is accepted by every callback; but when the result is visited, only the outermost geometry is delivered,
without its members, and then the visit fails with `EINVAL`. -/
theorem C30_nested_empties_lost {g : Geom} {b : GeomB} (hb : GeomReached b) (hw : g.WF) (hh : g.height ≤ 30)
    (hv : g.vertices = []) (hm : 0 < g.memberCount) {t : List Event} (ht : FeatureTrace g t) :
    ∃ b', feed geomBuilder t b = .ok () b' ∧
      ∃ t', (Geom.shell g).Trace t' ∧ Behaves (fun _ h => viewVisit b'.mem h b'.view) (.featStart :: t') (.fail EINVAL) := by
  obtain ⟨tb, htb, rfl⟩ := ht
  obtain ⟨b1, h1, l1⟩ := fed_feature (reached_blocks hb) hw hh htb
  refine ⟨b1, ?_, ?_⟩
  · rw [feed_append_ok h1]
    have : geomBuilder .featEnd b1 = .ok () b1 := by
      show gbFeatEnd b1 = _
      unfold gbFeatEnd
      rw [l1.data, hv]
      cases hn : b1.nodes with
      | nil =>
        rw [l1.nodes] at hn
        cases g <;> simp [lay] at hn
      | cons n ns => rfl
    rw [feed_cons_ok this]
    rfl
  · have hnodes := l1.nodes
    cases g with
    | point d cs => simp [Geom.memberCount] at hm
    | linestring d cs => simp [Geom.memberCount] at hm
    | polygon d rs =>
      have hd : (Geom.polygon d []).Denoted b1.mem [openNode 3 d 0] := ⟨_, [], rfl, rfl, rfl, rfl, by decide, rfl⟩
      have := C10_too_many_nodes hd (extra := (layRings d 1 rs 0).map (ANode.conc b1.blk)) (by
        cases rs with
        | nil => simp [Geom.memberCount] at hm
        | cons r rs => simp [layRings])
      have e : b1.view = ⟨[openNode 3 d 0] ++ (layRings d 1 rs 0).map (ANode.conc b1.blk)⟩ := by
        unfold GeomB.view; rw [hnodes]; rfl
      rw [e]
      exact this
    | multi k d ps =>
      have hd : (Geom.multi k d []).Denoted b1.mem [openNode k.code d 0] := ⟨_, [], rfl, rfl, rfl, rfl, by decide, rfl⟩
      have := C10_too_many_nodes hd (extra := (layL ps 1 0).map (ANode.conc b1.blk)) (by
        cases ps with
        | nil => simp [Geom.memberCount] at hm
        | cons p ps => cases p <;> simp [layL, lay])
      have e : b1.view = ⟨[openNode k.code d 0] ++ (layL ps 1 0).map (ANode.conc b1.blk)⟩ := by
        unfold GeomB.view; rw [hnodes]; rfl
      rw [e]
      exact this

/-- `MULTIPOINT (EMPTY)` -/
example : feed geomBuilder [.featStart, .geomStart 4 1, .geomStart 1 1, .geomEnd, .geomEnd, .featEnd] geomInit ≠ .ub ∧
    ∃ t', (Geom.multi .multipoint .xy []).Trace t' := by
  refine ⟨?_, _, [], rfl, rfl⟩
  decide +kernel

example {t : List Event} (ht : FeatureTrace (.multi .multipoint .xy [.point .xy []]) t) :
    ∃ b', feed geomBuilder t geomInit = .ok () b' ∧
      ∃ t', (Geom.multi .multipoint .xy []).Trace t' ∧ Behaves (fun _ h => viewVisit b'.mem h b'.view) (.featStart :: t') (.fail EINVAL) :=
  C30_nested_empties_lost .init (by simp [Geom.WF, Geom.WFL]) (by decide) rfl (by decide) ht

/-- A null feature is recorded as one node of unknown type. Visiting it is an error. -/
theorem C30_null_feature (b : GeomB) : ∃ b', feed geomBuilder [.featStart, .nullFeat, .featEnd] b = .ok () b' ∧
    Behaves (fun _ h => viewVisit b'.mem h b'.view) [.featStart, .geomStart 0 0] (.fail EINVAL) := by
  refine ⟨{ b with nodes := [blankNode], data := [], level := 0 }, rfl, ?_⟩
  have hb : Behaves (fun _ h => visitNode (GeomB.mem { b with nodes := [blankNode], data := [], level := 0 }) h [blankNode] 2 0 1)
      [.geomStart 0 0] (.fail EINVAL) := by
    intro σ hd s
    simp only [visitNode, List.getElem?_cons_zero, blankNode]
    exact Behaves.bind (Behaves.call (.geomStart 0 0)) (f := fun _ _ _ => M.fail EINVAL) (Behaves.fail _) σ hd s
  intro σ hd s
  simp only [viewVisit]
  exact Behaves.bind (Behaves.call .featStart) (f := fun _ _ _ => _)
    (Behaves.bind_fail hb (f := fun _ hh n => if n ≠ 0 then M.fail EINVAL else hh .featEnd)) σ hd s

/-! ## C22 (geometry builder) -/

/-- Feed several features one after the other; a feature stops at its first error, the next one is then started. Returns
`false` as soon as undefined behaviour occurs. -/
def buildsSafe (b : GeomB) : List (List Event) → Bool
  | [] => true
  | t :: ts => match feed geomBuilder t b with
    | .ok _ b' => buildsSafe b' ts
    | .err _ b' => buildsSafe b' ts
    | .ub => false

/-- From any state an owning geometry can have, any number of features, each started by `feat_start` and fed with callbacks in
any order and nesting until the first error, never makes the builder access memory it does not own, provided types and
dimensions are known ones.

Partial: `C22_geometry_after_error` and `C22_geometry_unknown_dimensions` show what happens otherwise. -/
theorem C22_geometry_features_safe_partial (ts : List (List Event))
    (h : ∀ t ∈ ts, ∃ t', t = .featStart :: t' ∧ ∀ e ∈ t', BuilderEvent e) {b : GeomB} (hb : GeomReached b) : buildsSafe b ts = true := by
  have run : ∀ (t : List Event), (∀ e ∈ t, BuilderEvent e) → ∀ b, OwnB b → GeomReached b →
      (feed geomBuilder t b).Post (fun _ b' => GeomReached b') (fun _ b' => GeomReached b') := by
    intro t
    induction t with
    | nil => intro _ b _ hr; exact hr
    | cons e t ih =>
      intro ht b ho hr
      have hs := geomBuilder_own ho (ht e (by simp))
      cases he : geomBuilder e b with
      | ok a b' =>
        rw [he] at hs
        rw [feed_cons_ok he]
        exact ih (fun x hx => ht x (by simp [hx])) b' hs (.callback hr he)
      | err rc b' =>
        simp only [feed, he]
        exact .failed hr he
      | ub => rw [he] at hs; exact hs.elim
  induction ts generalizing b with
  | nil => rfl
  | cons t ts ih =>
    obtain ⟨t', rfl, ht⟩ := h t (by simp)
    have hk := reached_blocks hb
    have := run t' ht { b with nodes := [], data := [], level := 0 } ⟨hk.1, hk.2, Nat.zero_le _, by simp⟩ (.callback (e := .featStart) hb rfl)
    have hfs : feed geomBuilder (.featStart :: t') b = feed geomBuilder t' { b with nodes := [], data := [], level := 0 } :=
      feed_cons_ok rfl
    unfold buildsSafe
    rw [hfs]
    cases hf : feed geomBuilder t' { b with nodes := [], data := [], level := 0 } with
    | ok a b' => rw [hf] at this; exact ih (fun t ht => h t (by simp [ht])) this
    | err rc b' => rw [hf] at this; exact ih (fun t ht => h t (by simp [ht])) this
    | ub => rw [hf] at this; exact this.elim

/-- A feature that closes too much, then one with rings inside a point. -/
example : buildsSafe geomInit [[.featStart, .geomStart 2 1, .coords 2 [[dbl1, dbl2]], .geomEnd, .geomEnd],
    [.featStart, .geomStart 1 4, .ringStart, .coords 3 [[dbl1, dbl2, dbl3]], .geomEnd, .featEnd]] = true :=
  C22_geometry_features_safe_partial _ (by
    intro t ht
    simp only [List.mem_cons, List.not_mem_nil, or_false] at ht
    rcases ht with rfl | rfl
    · exact ⟨_, rfl, by simp [BuilderEvent]⟩
    · exact ⟨_, rfl, by simp [BuilderEvent]⟩) .init

/-- Defect: the 32nd nested geometry is rejected but its node stays; ending the feature nevertheless reads outside the table
of sizes. -/
theorem C22_geometry_after_error :
    ∃ b1 b2, feed geomBuilder (.featStart :: .geomStart 1 1 :: .coords 2 [[dbl1, dbl2]] :: List.replicate 30 (.geomStart 7 1)) geomInit = .ok () b1 ∧
      geomBuilder (.geomStart 7 1) b1 = .err EINVAL b2 ∧ geomBuilder .featEnd b2 = .ub := by
  refine ⟨_, _, rfl, rfl, ?_⟩
  decide +kernel

/-- Defect: a point of unknown dimensions gets no pointers; ending its feature then divides by zero (here after the pointer
difference of unrelated objects) once there are coordinates. -/
theorem C22_geometry_unknown_dimensions :
    feed geomBuilder [.featStart, .geomStart 1 0, .coords 2 [[dbl1, dbl2]], .geomEnd, .featEnd] geomInit = .ub := by
  decide +kernel

/-! ## C31 -/

/-- A deep copy of a view into any owning geometry succeeds. The copy denotes the same geometry in every memory that holds
its coordinate block, whatever becomes of the memory of the source, and visiting it makes the callbacks of that geometry.

Partial: sequences in the other byte order are left out, see `C31_swapped_source`; so are sequences of 2^32 or more
ordinates (`C06_size_wraps`). -/
theorem C31_deep_copy_partial {m : Mem} {src : View} {g : Geom} (h : ViewDenotes m src g) (hs : g.SmallSeqs)
    (hn : ∀ n ∈ src.nodes, n.swap = false) {b : GeomB} (hb : GeomReached b) :
    ∃ b', deepCopy m src b = .ok () b' ∧ b'.mem b'.blk = b'.data ∧
      ∀ m' : Mem, m' b'.blk = b'.data → ViewDenotes m' b'.view g ∧
        ∃ t, FeatureTrace g t ∧ Behaves (fun _ h => viewVisit m' h b'.view) t (.done ()) := by
  obtain ⟨b', h1, h2, h3⟩ := deepCopy_run (m := m) (src := src) (copyable_of_denoted g h hs hn) b
  have hk := reached_blocks hb
  have hk' := reached_blocks (.copied hb h1)
  refine ⟨b', h1, by simp [GeomB.mem, hk'.1], ?_⟩
  intro m' hm
  have hv : ViewDenotes m' b'.view g := denoted_copied g h (h2 m' hm)
  exact ⟨hv, behaves_view hv⟩

/-- A polygon with one ring in native byte order, copied into a new geometry. -/
example : ∃ b', deepCopy (fun _ => interleaved exCoords) ⟨[exHeadNode 3 1, { exSeqNode 2 3 with swap := false }]⟩ geomInit = .ok () b' ∧
    ViewDenotes b'.mem b'.view (.polygon .xy [exCoords]) := by
  have hd : ViewDenotes (fun _ => interleaved exCoords) ⟨[exHeadNode 3 1, { exSeqNode 2 3 with swap := false }]⟩ (.polygon .xy [exCoords]) :=
    ⟨_, _, rfl, rfl, rfl, rfl, by decide, _, _, rfl, rfl,
      seqDenotes_of_check rfl rfl (by decide) (by decide) (by decide +kernel), rfl⟩
  obtain ⟨b', h1, h2, h3⟩ := C31_deep_copy_partial hd (by simp [Geom.SmallSeqs, exCoords, Dims.n]) (by simp [exHeadNode]) .init
  exact ⟨b', h1, (h3 _ h2).1⟩

/-- Defect: the copy of a view whose coordinates are in the other byte order (for instance the result of reading big-endian
WKB) holds them in native order but keeps the flag, so every ordinate of the copy is visited with its bytes reversed. Here
the copy of a collection of a point and a polygon: visiting the source gives 1 and 2, visiting the copy something else. -/
theorem C31_swapped_source :
    ∃ b', deepCopy exMem exView geomInit = .ok () b' ∧ ViewDenotes exMem exView exGeom ∧ ¬ ViewDenotes b'.mem b'.view exGeom := by
  refine ⟨_, rfl, exView_denotes, ?_⟩
  rintro ⟨n, ns, e, -, -, -, -, n1, n2, e2, ⟨x, e3, -, hx⟩, -⟩
  subst e3 e2
  simp only [GeomB.view, List.cons.injEq, List.cons_append, List.nil_append] at e
  obtain ⟨-, rfl, -⟩ := e
  have := hx.2.2.2.2 0 0 [dbl1, dbl2] dbl1 rfl rfl
  revert this
  decide +kernel

end Verif
