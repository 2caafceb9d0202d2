import Verif.Proof.BuilderValid
/-! # Builder: histories of appends -/
namespace Verif
open Spec

theorem coordsOk_setAt {g : Int} {d : Dims} {k : CoordKind} {b : Builder} {cs : List Coord} (hb : NativeB g d k b) (h : CoordsOk g d k b cs)
    {i : Nat} (hi : i ≤ listDepth g) (x : BBuf) : CoordsOk g d k { b with bufs := setAt b.bufs i x } cs := by
  have hlt := numBuffers_pos (listDepth g) d k
  rw [← hb.nBuffers] at hlt
  have hne : ∀ i', listDepth g < i' → setAt b.bufs i x i' = b.bufs i' := fun i' hi' => setAt_ne _ _ (by omega)
  have hcell : ∀ t j, j < d.n → setAt b.bufs i x (coordCell (listDepth g) d k t j).1 = b.bufs (coordCell (listDepth g) d k t j).1 :=
    fun t j hj => hne _ (coordCell_range (listDepth g) d k hj).1
  refine ⟨h.size, h.le, ?_, ?_, ?_, ?_, ?_, ?_⟩
  · intro i' h1 h2
    show (setAt b.bufs i x i').owned = false
    rw [hne i' h1]
    exact h.owned i' h1 h2
  · intro i' h1 h2
    show (setAt b.bufs i x i').mem.length = (setAt b.bufs i x (b.nBuffers - 1)).mem.length
    rw [hne i' h1, hne _ (by omega)]
    exact h.len i' h1 h2
  · show b.capCoords = (setAt b.bufs i x (b.nBuffers - 1)).mem.length / 8 / strideOf d k
    rw [hne _ (by omega)]
    exact h.cap
  · intro i' h1 h2
    show (setAt b.bufs i x i').size ≤ _
    rw [hne i' h1]
    exact h.fits i' h1 h2
  · rcases h.ptr with h0 | hp
    · exact .inl h0
    · refine .inr fun j hj => ?_
      show b.values j = some (_, (setAt b.bufs i x (coordCell (listDepth g) d k 0 j).1).gen, _)
      rw [hcell 0 j hj]
      exact hp j hj
  · intro t c hc
    obtain ⟨h1, h2⟩ := h.holds t c hc
    refine ⟨h1, fun j y hy => ?_⟩
    have hj : j < d.n := by rw [← h1]; exact (List.getElem?_eq_some_iff.mp hy).1
    show f64At (setAt b.bufs i x (coordCell (listDepth g) d k t j).1).mem _ = _
    rw [hcell t j hj]
    exact h2 j y hy

/-- Which buffers are used for coordinates. -/
structure Uses (cc : Option (Int × CoordKind)) (d : Dims) (role : Nat → BRole) (b0 : Builder) : Prop where
  none : cc = none → ∀ i, i < b0.nBuffers → role i ≠ .coords
  some : ∀ g k, cc = some (g, k) → NativeB g d k b0 ∧ (∀ i, i ≤ listDepth g → role i ≠ .coords) ∧
    ∀ i, listDepth g < i → i < b0.nBuffers → role i = .coords

structure Carries (cc : Option (Int × CoordKind)) (d : Dims) (role : Nat → BRole) (b0 b : Builder) (x : BData) : Prop where
  same : SameType b0 b
  raw : ∀ i, i < b0.nBuffers → role i ≠ .coords → Has (b.bufs i) (x.bytes i) ∧ (role i = .offsets → (x.bytes i).length % 4 = 0)
  coords : ∀ g k, cc = some (g, k) → CoordsOk g d k b x.coords
  unused : cc = none → b.sizeCoords = 0

section
variable {cc : Option (Int × CoordKind)} {d : Dims} {role : Nat → BRole} {b0 b : Builder} {x : BData}

theorem Uses.low (hu : Uses cc d role b0) {i : Nat} (hi : i < b0.nBuffers) (hr : role i ≠ .coords) {g : Int} {k : CoordKind}
    (hc : cc = Option.some (g, k)) : i ≤ listDepth g := by
  obtain ⟨-, -, h3⟩ := hu.some g k hc
  by_cases h : i ≤ listDepth g
  · exact h
  · exact absurd (h3 i (by omega) hi) hr

/-- A buffer that is not for coordinates is replaced. -/
theorem Carries.set (hu : Uses cc d role b0) (h : Carries cc d role b0 b x) {i : Nat} (hi : i < b0.nBuffers) (hr : role i ≠ .coords)
    {y : BBuf} {bs : List Byte} (hy : Has y (x.bytes i ++ bs)) (ha : role i = .offsets → bs.length % 4 = 0) :
    Carries cc d role b0 { b with bufs := setAt b.bufs i y } (x.addBytes i bs) := by
  refine ⟨h.same.trans ⟨rfl, rfl, rfl, rfl, rfl, rfl⟩, ?_, ?_, h.unused⟩
  · intro i' hi' hr'
    show Has (setAt b.bufs i y i') (if i' = i then x.bytes i ++ bs else x.bytes i') ∧ (_ → (if i' = i then x.bytes i ++ bs else x.bytes i').length % 4 = 0)
    by_cases he : i' = i
    · subst he
      rw [if_pos rfl, setAt_get]
      refine ⟨hy, fun ho => ?_⟩
      have h1 := (h.raw i' hi' hr').2 ho
      have h2 := ha ho
      rw [List.length_append]
      omega
    · rw [if_neg he, setAt_ne _ _ he]
      exact h.raw i' hi' hr'
  · intro g k hc
    obtain ⟨h1, -, -⟩ := hu.some g k hc
    exact coordsOk_setAt (h1.of_same h.same) (h.coords g k hc) (hu.low hi hr hc) y

theorem addBytes_nil (x : BData) (i : Nat) : x.addBytes i [] = x := by
  unfold BData.addBytes
  rw [List.append_nil]
  have : (fun j => if j = i then x.bytes i else x.bytes j) = x.bytes := by
    funext j
    split
    · rename_i h; rw [h]
    · rfl
  rw [this]

theorem Carries.grow (hu : Uses cc d role b0) (h : Carries cc d role b0 b x) {i : Nat} (hi : i < b0.nBuffers) (hr : role i ≠ .coords)
    (junk : Nat → Byte) (n : Nat) : Carries cc d role b0 { b with bufs := setAt b.bufs i (grown junk (b.bufs i) n) } x := by
  have := h.set hu hi hr (y := grown junk (b.bufs i) n) (bs := []) (by
    rw [List.append_nil]
    exact has_grown (h.raw i hi hr).1 junk n) fun _ => rfl
  rwa [addBytes_nil] at this

/-- Coordinates are added. -/
theorem Carries.addCoords (hu : Uses cc d role b0) (h : Carries cc d role b0 b x) {g : Int} {k : CoordKind} (hc : cc = Option.some (g, k))
    {b' : Builder} {cs : List Coord} (hs : SameType b b') (hk : ∀ i, i ≤ listDepth g → b'.bufs i = b.bufs i)
    (hok : CoordsOk g d k b' cs) : Carries cc d role b0 b' { x with coords := cs } := by
  refine ⟨h.same.trans hs, ?_, ?_, fun hn => by rw [hc] at hn; cases hn⟩
  · intro i hi hr
    rw [hk i (hu.low hi hr hc)]
    exact h.raw i hi hr
  · intro g' k' hc'
    rw [hc] at hc'
    cases hc'
    exact hok

theorem Uses.coords (hu : Uses cc d role b0) (h : ∃ i, i < b0.nBuffers ∧ role i = .coords) : ∃ g k, cc = Option.some (g, k) := by
  cases hc : cc with
  | none =>
    obtain ⟨i, hi, hr⟩ := h
    exact absurd hr (hu.none hc i hi)
  | some gk => exact ⟨gk.1, gk.2, rfl⟩

theorem op_step (junk : Nat → Byte) (hu : Uses cc d role b0) (h : Carries cc d role b0 b x) (op : BOp)
    (hl : op.Legal b0.nBuffers role) : ∃ r b', op.run junk b = .ok r b' ∧ Carries cc d role b0 b' (op.apply d r x) := by
  have hn := h.same.nBuffers
  cases op with
  | reserveBuffer i n =>
    obtain ⟨hi, hr⟩ := hl
    refine ⟨false, _, ?_, h.grow hu hi hr junk n⟩
    show (bReserveBuffer junk i n >>= fun _ => pure false) b = _
    rw [M.bind_ok (reserveBuffer_run junk n (by omega) (h.raw i hi hr).1.2.2.2)]
    rfl
  | appendBuffer i bs =>
    obtain ⟨hi, hr, ha⟩ := hl
    obtain ⟨y, h1, h2⟩ := appendBuffer_run junk bs (by omega : i < b.nBuffers) (h.raw i hi hr).1
    refine ⟨true, _, ?_, h.set hu hi hr h2 ha⟩
    show (bAppendBuffer junk i bs >>= fun _ => pure true) b = _
    rw [M.bind_ok h1]
    rfl
  | checkedBuffer i bs =>
    obtain ⟨hi, hr, ha⟩ := hl
    have hrun : BOp.run junk (.checkedBuffer i bs) b = (if decide ((b.bufs i).size + bs.length ≤ (b.bufs i).mem.length) = true
        then (bAppendBufferUnsafe i bs >>= fun _ => pure true) else pure false) b := by
      show (bBufferCheck i bs.length >>= fun ok => if ok = true then (bAppendBufferUnsafe i bs >>= fun _ => pure true) else pure false) b = _
      rw [M.bind_ok (check_run bs.length (by omega : i < b.nBuffers))]
    rw [hrun]
    by_cases hf : (b.bufs i).size + bs.length ≤ (b.bufs i).mem.length
    · rw [decide_eq_true hf, if_pos rfl, M.bind_ok (appendUnsafe_run (by omega : i < b.nBuffers) hf)]
      exact ⟨true, _, rfl, h.set hu hi hr (has_appended (h.raw i hi hr).1 hf) ha⟩
    · rw [decide_eq_false hf, if_neg (by decide)]
      exact ⟨false, b, rfl, h⟩
  | reserveOffsets i n =>
    obtain ⟨hi, hr⟩ := hl
    have hr' : role (i + 1) ≠ .coords := by rw [hr]; decide
    obtain ⟨h1, h2, h3, h4⟩ := (h.raw (i + 1) hi hr').1
    obtain ⟨m, hm, -⟩ := offsetReserve_run junk n (by omega : i + 1 < b.nBuffers) h4 h2
    refine ⟨false, _, ?_, h.grow hu hi hr' junk m⟩
    show (bOffsetReserve junk i n >>= fun _ => pure false) b = _
    rw [M.bind_ok hm]
    rfl
  | appendOffsets i vs =>
    obtain ⟨hi, hr⟩ := hl
    have hr' : role (i + 1) ≠ .coords := by rw [hr]; decide
    obtain ⟨h1, h2⟩ := h.raw (i + 1) hi hr'
    obtain ⟨y, h3, h4⟩ := offsetAppend_run junk vs (by omega : i + 1 < b.nBuffers) h1 (h2 hr)
    refine ⟨true, { b with bufs := setAt b.bufs (i + 1) y }, ?_, ?_⟩
    · show (bOffsetAppend junk i vs >>= fun _ => pure true) b = _
      rw [M.bind_ok h3]
      rfl
    · rw [i32Bytes_eq] at h4
      exact h.set hu hi hr' h4 fun _ => by rw [← i32Bytes_eq, length_i32Bytes]; omega
  | checkedOffsets i vs =>
    obtain ⟨hi, hr⟩ := hl
    have hr' : role (i + 1) ≠ .coords := by rw [hr]; decide
    obtain ⟨h1, h2⟩ := h.raw (i + 1) hi hr'
    have ha := h2 hr
    have hrun : BOp.run junk (.checkedOffsets i vs) b =
        (if decide ((b.bufs (i + 1)).size / 4 + vs.length ≤ (b.bufs (i + 1)).mem.length / 4) = true
        then (bOffsetAppendUnsafe i vs >>= fun _ => pure true) else pure false) b := by
      show (bOffsetCheck i vs.length >>= fun ok => if ok = true then (bOffsetAppendUnsafe i vs >>= fun _ => pure true) else pure false) b = _
      rw [M.bind_ok (offsetCheck_run vs.length (by omega : i + 1 < b.nBuffers))]
    rw [hrun]
    by_cases hf : (b.bufs (i + 1)).size / 4 + vs.length ≤ (b.bufs (i + 1)).mem.length / 4
    · have hs := h1.1
      have hf' : (b.bufs (i + 1)).size + (i32Bytes vs).length ≤ (b.bufs (i + 1)).mem.length := by rw [length_i32Bytes]; omega
      have hu' : bOffsetAppendUnsafe i vs b = _ := appendUnsafe_run (by omega : i + 1 < b.nBuffers) hf'
      rw [decide_eq_true hf, if_pos rfl, M.bind_ok hu']
      have hh := has_appended h1 hf'
      refine ⟨true, _, rfl, ?_⟩
      have := h.set hu hi hr' hh fun _ => by rw [length_i32Bytes]; omega
      rw [i32Bytes_eq] at this
      rw [i32Bytes_eq]
      exact this
    · rw [decide_eq_false hf, if_neg (by decide)]
      exact ⟨false, b, rfl, h⟩
  | reserveCoords n =>
    obtain ⟨g, k, hc⟩ := hu.coords hl
    have hb := (hu.some g k hc).1.of_same h.same
    have hok := h.coords g k hc
    have hrun : BOp.run junk (.reserveCoords n) b = .ok false (if b.sizeCoords + n ≤ b.capCoords then b else reserved junk g d k n b) := by
      show (bCoordsReserve junk n >>= fun _ => pure false) b = _
      rw [M.bind_ok (coordsReserve_run junk hb n hok.owned)]
      rfl
    refine ⟨false, _, hrun, ?_⟩
    show Carries cc d role b0 _ x
    split
    · exact h
    · refine h.addCoords hu hc (sameType_reserved junk g d k n b) ?_ (coordsOk_reserved junk hb hok n)
      intro i hi
      show reservedBufs junk (listDepth g) (strideOf d k) n b i = _
      unfold reservedBufs
      rw [if_neg (by omega)]
  | appendCoords S src s off cs =>
    obtain ⟨hl, hs⟩ := hl
    obtain ⟨g, k, hc⟩ := hu.coords hl
    have hb := (hu.some g k hc).1.of_same h.same
    obtain ⟨b', h1, h2, h3, h4⟩ := coordsAppend_run junk hb (h.coords g k hc) hs
    refine ⟨true, b', ?_, h.addCoords hu hc h2 h3 h4⟩
    show (bCoordsAppend junk S src s.code off cs.length >>= fun _ => pure true) b = _
    rw [M.bind_ok h1]
    rfl
  | checkedCoords S src s off cs =>
    obtain ⟨hl, hs⟩ := hl
    obtain ⟨g, k, hc⟩ := hu.coords hl
    have hb := (hu.some g k hc).1.of_same h.same
    have hrun : BOp.run junk (.checkedCoords S src s off cs) b = (if decide (b.sizeCoords + cs.length ≤ b.capCoords) = true
        then (bCoordsAppendUnsafe S src s.code off cs.length >>= fun _ => pure true) else pure false) b := rfl
    rw [hrun]
    by_cases hf : b.sizeCoords + cs.length ≤ b.capCoords
    · obtain ⟨b', h1, h2, h3, h4⟩ := coordsUnsafe_run hb (h.coords g k hc) hs hf
      rw [decide_eq_true hf, if_pos rfl, M.bind_ok h1]
      exact ⟨true, b', rfl, h.addCoords hu hc h2 h3 h4⟩
    · rw [decide_eq_false hf, if_neg (by decide)]
      exact ⟨false, b, rfl, h⟩

theorem ops_steps (junk : Nat → Byte) (hu : Uses cc d role b0) : ∀ (ops : List BOp) (b : Builder) (x : BData),
    Carries cc d role b0 b x → (∀ op ∈ ops, op.Legal b0.nBuffers role) →
    ∃ rs b', runBOps junk ops b = .ok rs b' ∧ rs.length = ops.length ∧ Carries cc d role b0 b' (applyBOps d ops rs x)
  | [], b, x, h, _ => ⟨[], b, rfl, rfl, h⟩
  | op :: ops, b, x, h, hl => by
    obtain ⟨r, b1, h1, h2⟩ := op_step junk hu h op (hl op (by simp))
    obtain ⟨rs, b', h3, hlen, h4⟩ := ops_steps junk hu ops b1 _ h2 fun o ho => hl o (by simp [ho])
    refine ⟨r :: rs, b', ?_, by rw [List.length_cons, List.length_cons, hlen], h4⟩
    unfold runBOps
    rw [M.bind_ok h1, M.bind_ok h3]
    rfl
end

/-! ## Starting points -/

/-- Nothing has been added. -/
structure Blank (b : Builder) : Prop where
  mem : ∀ i, (b.bufs i).mem = []
  size : ∀ i, (b.bufs i).size = 0
  owned : ∀ i, (b.bufs i).owned = false
  coords : b.sizeCoords = 0 ∧ b.capCoords = 0

theorem has_blank {b : Builder} (h : Blank b) (i : Nat) : Has (b.bufs i) [] := by
  unfold Has
  rw [h.mem i, h.size i, h.owned i]
  exact ⟨rfl, Nat.le_refl _, rfl, rfl⟩

theorem coordsOk_blank {g : Int} {d : Dims} {k : CoordKind} {b : Builder} (h : Blank b) : CoordsOk g d k b [] := by
  refine ⟨h.coords.1, by rw [h.coords.1]; omega, fun i _ _ => h.owned i, fun i _ _ => by rw [h.mem, h.mem],
    by rw [h.coords.2, h.mem]; simp, fun i _ _ => by rw [h.size]; omega, .inl h.coords.2, ?_⟩
  intro t c hc
  simp at hc

theorem carries_blank {cc : Option (Int × CoordKind)} {d : Dims} {role : Nat → BRole} {b : Builder} (h : Blank b) :
    Carries cc d role b b .empty :=
  ⟨.rfl' b, fun i _ _ => ⟨has_blank h i, fun _ => rfl⟩, fun _ _ _ => coordsOk_blank h, fun _ => h.coords.1⟩

theorem blank_init {t : TypeId} {b : Builder} (h : builderInitFromType t = .ok b) : Blank b := by
  obtain ⟨-, -, -, -, -, -, -, -, -, hb, h1, h2, -⟩ := init_inv h
  exact ⟨fun i => by rw [hb], fun i => by rw [hb], fun i => by rw [hb], h1, h2⟩

theorem blank_fresh (b : Builder) : Blank b.fresh := ⟨fun _ => rfl, fun _ => rfl, fun _ => rfl, rfl, rfl⟩

theorem fresh_same (b : Builder) : SameType b b.fresh := ⟨rfl, rfl, rfl, rfl, rfl, rfl⟩

/-- What a successful `Finish` did. -/
theorem finish_inv {b : Builder} {a : AArray} {b' : Builder} (h : bFinish b = .ok a b') :
    b' = b.syncCoords.fresh ∧ (∀ i, i < b.nBuffers → (b.syncCoords.bufs i).size ≤ (b.syncCoords.bufs i).mem.length) ∧
    ∃ n, a = b.syncCoords.array.withNullCount n := by
  unfold bFinish at h
  rw [M.bind_run, M.modify_run] at h
  dsimp only at h
  rw [M.bind_run, M.get_run] at h
  dsimp only at h
  split at h
  · cases h
  rename_i hany
  split at h
  · cases h
  split at h
  · cases h
  obtain ⟨ok, s1, h1, h2⟩ := M.bind_eq_ok.mp h
  have hs1 : s1 = b.syncCoords := by
    unfold orUb at h1
    cases hd : naTreeDefault b.syncCoords.tree b.syncCoords.array with
    | none => rw [hd] at h1; cases h1
    | some v => rw [hd] at h1; cases h1; rfl
  subst hs1
  split at h2
  · rw [M.bind_run, M.modify_run] at h2
    dsimp only at h2
    cases h2
    refine ⟨rfl, ?_, ?_⟩
    · intro i hi
      by_cases hc : (b.syncCoords.bufs i).size ≤ (b.syncCoords.bufs i).mem.length
      · exact hc
      · exfalso
        apply hany
        rw [List.any_eq_true]
        refine ⟨i, List.mem_range.mpr (by rw [(syncCoords_same b).nBuffers]; exact hi), decide_eq_true (by omega)⟩
    · by_cases hc : b.syncCoords.array.buffers[0]? = some none
      · rw [if_pos hc]
        exact ⟨b.syncCoords.array.nullCount, by cases b.syncCoords.array; rfl⟩
      · rw [if_neg hc]
        exact ⟨-1, rfl⟩
  · cases h2


/-! ## Places in the finished array -/

/-- The part of a tree of arrays reached through these children. -/
def treeAt : ATree BKind → List Nat → Option (ATree BKind)
  | t, [] => some t
  | .node _ ts, k :: p =>
    match ts[k]? with
    | some c => treeAt c p
    | none => none

mutual
theorem flat_place : (t : ATree BKind) → (skip : Nat) → (path p : List Nat) → (j : Nat) → (p, j) ∈ flatBuffers BKind.nBuffers skip path t →
    ∃ q k ts, p = path ++ q ∧ treeAt t q = some (.node k ts) ∧ j < k.nBuffers
  | .node a cs, skip, path, p, j, h => by
    unfold flatBuffers at h
    rcases List.mem_append.mp h with h | h
    · obtain ⟨i, hi, he⟩ := List.mem_map.mp h
      cases he
      rw [List.mem_range] at hi
      exact ⟨[], a, cs, by simp, rfl, by omega⟩
    · obtain ⟨i, c, q, k, ts, hc, hp, ht, hj⟩ := flat_places cs path 0 p j h
      refine ⟨i :: q, k, ts, ?_, ?_, hj⟩
      · rw [hp, Nat.zero_add]
      · unfold treeAt
        rw [hc]
        exact ht
theorem flat_places : (cs : List (ATree BKind)) → (path : List Nat) → (n : Nat) → (p : List Nat) → (j : Nat) →
    (p, j) ∈ flatBuffersL BKind.nBuffers path n cs →
    ∃ i c q k ts, cs[i]? = some c ∧ p = path ++ (n + i) :: q ∧ treeAt c q = some (.node k ts) ∧ j < k.nBuffers
  | [], path, n, p, j, h => by
    unfold flatBuffersL at h
    cases h
  | c :: cs, path, n, p, j, h => by
    unfold flatBuffersL at h
    rcases List.mem_append.mp h with h | h
    · obtain ⟨q, k, ts, hp, ht, hj⟩ := flat_place c 1 (path ++ [n]) p j h
      exact ⟨0, c, q, k, ts, rfl, by rw [hp]; simp, ht, hj⟩
    · obtain ⟨i, c', q, k, ts, hc, hp, ht, hj⟩ := flat_places cs path (n + 1) p j h
      exact ⟨i + 1, c', q, k, ts, by simpa using hc, by rw [hp, show n + 1 + i = n + (i + 1) by omega], ht, hj⟩
end

theorem arraysAt_get (b : Builder) (len : List Nat → Int) : ∀ (ts : List (ATree BKind)) (path : List Nat) (n i : Nat) (t : ATree BKind),
    ts[i]? = some t → (b.arraysAt len ts path n)[i]? = some (b.arrayAt len t (path ++ [n + i]))
  | [], _, _, i, t, h => by simp at h
  | t' :: ts, path, n, 0, t, h => by
    simp at h
    subst h
    unfold Builder.arraysAt
    rfl
  | t' :: ts, path, n, i + 1, t, h => by
    unfold Builder.arraysAt
    rw [List.getElem?_cons_succ, arraysAt_get b len ts path (n + 1) i t (by simpa using h), show n + 1 + i = n + (i + 1) by omega]

theorem nodeAt_arrayAt (b : Builder) (len : List Nat → Int) : ∀ (q : List Nat) (t : ATree BKind) (path : List Nat) (k : BKind) (ts : List (ATree BKind)),
    treeAt t q = some (.node k ts) → nodeAt (b.arrayAt len t path) q = some (b.arrayAt len (.node k ts) (path ++ q))
  | [], t, path, k, ts, h => by
    unfold treeAt at h
    cases h
    unfold nodeAt
    rw [List.append_nil]
  | i :: q, .node a cs, path, k, ts, h => by
    unfold treeAt at h
    cases hc : cs[i]? with
    | none => rw [hc] at h; cases h
    | some c =>
      rw [hc] at h
      dsimp only at h
      unfold nodeAt
      have hch : (b.arrayAt len (.node a cs) path).children = b.arraysAt len cs path 0 := by unfold Builder.arrayAt; rfl
      rw [hch, arraysAt_get b len cs path 0 i c hc]
      dsimp only
      rw [nodeAt_arrayAt b len q c _ k ts h, Nat.zero_add, List.append_assoc]
      rfl

theorem nodeAt_withNullCount (a : AArray) (n : Int) (p : List Nat) :
    ∃ f : AArray → AArray, (∀ x, (f x).buffers = x.buffers ∧ (f x).length = x.length) ∧ nodeAt (a.withNullCount n) p = (nodeAt a p).map f := by
  cases a with
  | mk l nc o bu ch =>
    cases p with
    | nil => exact ⟨fun x => x.withNullCount n, fun x => by cases x; exact ⟨rfl, rfl⟩, rfl⟩
    | cons i p =>
      refine ⟨id, fun x => ⟨rfl, rfl⟩, ?_⟩
      unfold AArray.withNullCount nodeAt
      rw [Option.map_id]
      rfl

/-- The buffer at a place of the finished array. -/
theorem array_buffer {b : Builder} (hnd : (flatBuffers BKind.nBuffers 0 [] b.tree).Nodup) {i : Nat} (hi : i < b.nBuffers)
    {p : List Nat} {j : Nat} (hp : (flatBuffers BKind.nBuffers 0 [] b.tree)[i]? = some (p, j)) (len : List Nat → Int) :
    ∃ x, nodeAt (b.arrayAt len b.tree []) p = some x ∧
      x.buffers[j]? = some (if j = 0 ∧ (b.bufs i).mem = [] then none else some ((b.bufs i).mem.take (b.bufs i).size)) := by
  obtain ⟨q, k, ts, hq, ht, hj⟩ := flat_place b.tree 0 [] p j (List.mem_of_getElem? hp)
  rw [List.nil_append] at hq
  subst hq
  have hslot : b.slot i = some ⟨p, p.length, j⟩ := by
    rw [slot_eq, hp]
    rfl
  have hidx : slotIndex b.tree b.nBuffers p j = some i := by
    cases hs : slotIndex b.tree b.nBuffers p j with
    | none =>
      have := List.find?_eq_none.mp hs i (List.mem_range.mpr hi)
      exact absurd (decide_eq_true hslot) this
    | some i' =>
      obtain ⟨-, h2⟩ := slot_of_index hs
      rw [slot_inj hnd hslot h2]
  refine ⟨_, nodeAt_arrayAt b len p b.tree [] k ts ht, ?_⟩
  unfold Builder.arrayAt
  show ((List.range k.nBuffers).map (b.content ([] ++ p)))[j]? = _
  rw [List.nil_append, List.getElem?_map, List.getElem?_range hj, Option.map_some, content_eq, hidx]

/-! ## All types -/

/-- Types a builder can be made for. -/
def builderTypes : List TypeId := (nativeTypes ++ serializedTypes).filter fun t => decide (t ≠ 100005 ∧ t ≠ 100006)

def typeChecks (t : TypeId) : Bool :=
  match typeTree t, builderInitFromType t with
  | some tree, .ok b =>
    decide ((flatBuffers BKind.nBuffers 0 [] tree).Nodup) && decide (b.nBuffers = (flatBuffers BKind.nBuffers 0 [] tree).length)
  | _, _ => false
theorem all_typeChecks : (builderTypes.all typeChecks) = true := by decide +kernel

end Verif
