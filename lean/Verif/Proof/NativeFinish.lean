import Verif.Proof.NativeWriter
/-! # Native writer: starting and finishing -/
namespace Verif
open Spec

/-! ## What every call leaves alone -/

def KeepsN {α : Type} (m : M NWriter α) : Prop := ∀ w w', (m w).state? = some w' → SameType w.builder w'.builder

theorem keepsN_pure {α : Type} (x : α) : KeepsN (pure x : M NWriter α) := by
  intro b b' h
  cases h
  exact .rfl' _

theorem keepsN_fail {α : Type} (rc : Code) : KeepsN (M.fail rc : M NWriter α) := by
  intro b b' h
  cases h
  exact .rfl' _

theorem keepsN_undef {α : Type} : KeepsN (M.undef : M NWriter α) := by
  intro b b' h
  cases h

theorem keepsN_get : KeepsN (M.get : M NWriter NWriter) := by
  intro b b' h
  cases h
  exact .rfl' _

theorem keepsN_modify {f : NWriter → NWriter} (hf : ∀ w, SameType w.builder (f w).builder) : KeepsN (M.modify f) := by
  intro b b' h
  cases h
  exact hf _

theorem keepsN_bind {α β : Type} {m : M NWriter α} {f : α → M NWriter β} (hm : KeepsN m) (hf : ∀ x, KeepsN (f x)) :
    KeepsN (m >>= f) := by
  intro b b' h
  rw [M.bind_run] at h
  cases hb : m b with
  | ok x s =>
    rw [hb] at h
    exact (hm b s (by rw [hb]; rfl)).trans (hf x s b' h)
  | err rc s =>
    rw [hb] at h
    cases h
    exact hm b b' (by rw [hb]; rfl)
  | ub => rw [hb] at h; cases h

theorem keepsN_ite {α : Type} {c : Prop} [Decidable c] {m m' : M NWriter α} (h : KeepsN m) (h' : KeepsN m') :
    KeepsN (if c then m else m') := by
  split <;> assumption

theorem keepsN_nwB {α : Type} {x : M Builder α} (h : KeepsType x) : KeepsN (nwB x) := by
  intro w w' hw
  unfold nwB at hw
  cases hx : x w.builder with
  | ok a b =>
    rw [hx] at hw
    cases hw
    exact h _ _ (by rw [hx]; rfl)
  | err rc b =>
    rw [hx] at hw
    cases hw
    exact h _ _ (by rw [hx]; rfl)
  | ub => rw [hx] at hw; cases hw

theorem keepsN_nwV (x : Bitmap → Option Bitmap) : KeepsN (nwV x) := by
  intro w w' hw
  unfold nwV at hw
  split at hw <;> cases hw
  exact .rfl' _

theorem keepsType_offsetAppend (junk : Nat → Byte) (i : Nat) (vs : List Int) : KeepsType (bOffsetAppend junk i vs) :=
  keepsType_bind (keepsType_offsetCheck _ _) fun _ => keepsType_bind (keepsType_ite (keepsType_pure _)
    (keepsType_bind (keepsType_offsetCheck _ _) fun _ => keepsType_ite (keepsType_pure _) (keepsType_reserve _ _ _)))
    fun _ => keepsType_append _ _

theorem keepsType_appendBuffer (junk : Nat → Byte) (i : Nat) (bs : List Byte) : KeepsType (bAppendBuffer junk i bs) :=
  keepsType_bind (keepsType_check _ _) fun _ => keepsType_bind (keepsType_ite (keepsType_pure _) (keepsType_reserve _ _ _))
    fun _ => keepsType_append _ _

theorem keepsType_coordsAppend (junk : Nat → Byte) (S : DMem) (src : CoordView) (dims off n : Nat) : KeepsType (bCoordsAppend junk S src dims off n) :=
  keepsType_bind (keepsType_coordsCheck _) fun _ => keepsType_bind (keepsType_ite (keepsType_pure _) (keepsType_coordsReserve _ _))
    fun _ => keepsType_coordsUnsafe _ _ _ _ _

theorem keepsType_appendView (m : Mem) (v : View) (count : Nat) : KeepsType (bAppendViewUnsafe m v count) :=
  keepsType_bind keepsType_get fun _ => keepsType_bind (keepsType_orUb _) fun _ => keepsType_modify fun _ => ⟨rfl, rfl, rfl, rfl, rfl, rfl⟩

theorem keepsN_zeros (junk : Nat → Byte) : ∀ k i, KeepsN (nwZeros junk k i)
  | 0, _ => keepsN_pure _
  | k + 1, i => keepsN_bind (keepsN_nwB (keepsType_offsetAppend _ _ _)) fun _ => keepsN_zeros junk k (i + 1)

theorem keepsN_same {f : NWriter → NWriter} (hf : ∀ w, (f w).builder = w.builder) : KeepsN (M.modify f) :=
  keepsN_modify fun w => by rw [hf]; exact .rfl' _

theorem keepsN_ensure (junk : Nat → Byte) : KeepsN (nwEnsureInitialized junk) :=
  keepsN_bind keepsN_get fun _ => keepsN_bind (keepsN_zeros _ _ _) fun _ => keepsN_modify fun _ => ⟨rfl, rfl, rfl, rfl, rfl, rfl⟩

theorem keepsN_finish (junk : Nat → Byte) : KeepsN (nwFinish junk) :=
  keepsN_bind keepsN_get fun _ => keepsN_bind (keepsN_ite (keepsN_nwB (keepsType_appendBuffer _ _ _)) (keepsN_pure _)) fun _ =>
    keepsN_bind (keepsN_nwB keepsType_finish) fun _ => keepsN_bind (keepsN_ensure _) fun _ => keepsN_pure _

theorem keepsN_mark (junk : Nat → Byte) (b : Bool) (n : Int) : KeepsN (nwMark junk b n) :=
  keepsN_bind keepsN_get fun _ => keepsN_ite
    (keepsN_bind (keepsN_ite (keepsN_ite keepsN_undef (keepsN_nwV _)) (keepsN_pure _)) fun _ =>
      keepsN_bind (keepsN_same fun _ => rfl) fun _ => keepsN_nwV _)
    (keepsN_ite (keepsN_nwV _) (keepsN_pure _))

theorem keepsN_validity (junk : Nat → Byte) (b : Bool) : KeepsN (nwAppendValidity junk b) :=
  keepsN_bind (keepsN_same fun _ => rfl) fun _ => keepsN_bind keepsN_get fun _ => keepsN_mark _ _ _

theorem keepsN_size (junk : Nat → Byte) (i n : Nat) : KeepsN (nwAppendSize junk i n) :=
  keepsN_ite (keepsN_fail _) (keepsN_bind (keepsN_same fun _ => rfl) fun _ => keepsN_bind keepsN_get fun _ =>
    keepsN_nwB (keepsType_offsetAppend _ _ _))

theorem keepsN_empty (junk : Nat → Byte) : KeepsN (nwAppendEmpty junk) :=
  keepsN_bind keepsN_get fun _ => keepsN_ite (keepsN_nwB (keepsType_coordsAppend _ _ _ _ _ _)) (keepsN_ite (keepsN_size _ _ _) (keepsN_fail _))

theorem keepsN_lines (junk : Nat → Byte) (i : Nat) : ∀ n ns, KeepsN (nwLineOffsets junk i n ns)
  | 0, _ => keepsN_pure _
  | _ + 1, [] => keepsN_undef
  | n + 1, _ :: ns => keepsN_bind (keepsN_size _ _ _) fun _ => keepsN_lines junk i n ns

theorem keepsN_polys (junk : Nat → Byte) (i : Nat) : ∀ n ns, KeepsN (nwPolyOffsets junk i n ns)
  | 0, _ => keepsN_pure _
  | _ + 1, [] => keepsN_undef
  | n + 1, node :: ns => keepsN_bind (keepsN_size _ _ _) fun _ => keepsN_bind (keepsN_lines _ _ _ _) fun _ =>
      keepsN_polys junk i n (ns.drop node.size)

theorem keepsN_offsets (junk : Nat → Byte) (g : Int) (nodes : List Node) (count : Nat) : KeepsN (nwAppendOffsets junk g nodes count) := by
  cases nodes with
  | nil => exact keepsN_undef
  | cons node ns =>
    exact keepsN_ite (keepsN_ite (keepsN_fail _) (keepsN_pure _)) (keepsN_ite
      (keepsN_ite (keepsN_lines _ _ _ _) (keepsN_ite (keepsN_ite (keepsN_fail _) (keepsN_lines _ _ _ _)) (keepsN_fail _))) (keepsN_ite
      (keepsN_ite (keepsN_polys _ _ _ _) (keepsN_ite (keepsN_ite (keepsN_fail _) (keepsN_polys _ _ _ _)) (keepsN_fail _))) (keepsN_ite
      (keepsN_ite (keepsN_size _ _ _) (keepsN_fail _)) (keepsN_ite
      (keepsN_ite (keepsN_bind (keepsN_size _ _ _) fun _ => keepsN_lines _ _ _ _) (keepsN_ite (keepsN_polys _ _ _ _) (keepsN_fail _))) (keepsN_ite
      (keepsN_ite (keepsN_bind (keepsN_size _ _ _) fun _ => keepsN_polys _ _ _ _)
        (keepsN_ite (keepsN_bind (keepsN_size _ _ _) fun _ => keepsN_polys _ _ _ _) (keepsN_fail _))) (keepsN_fail _))))))

theorem keepsN_append (junk : Nat → Byte) (m : Mem) (v : View) : KeepsN (nwAppend junk m v) :=
  keepsN_bind keepsN_get fun _ => keepsN_ite (keepsN_bind (keepsN_empty _) fun _ => keepsN_validity _ _)
    (keepsN_bind (keepsN_offsets _ _ _ _) fun _ => keepsN_bind (keepsN_nwB (keepsType_coordsReserve _ _)) fun _ =>
      keepsN_bind (keepsN_nwB (keepsType_appendView _ _ _)) fun _ => keepsN_validity _ _)

theorem keepsN_null (junk : Nat → Byte) : KeepsN (nwAppendNull junk) := keepsN_bind (keepsN_empty _) fun _ => keepsN_validity _ _

theorem keepsN_coords (junk : Nat → Byte) (i nv : Nat) (rows : List (List Dbl)) : KeepsN (nwCoords junk i nv rows) :=
  keepsN_bind (keepsN_same fun _ => rfl) fun _ => keepsN_bind keepsN_get fun _ => keepsN_nwB (keepsType_coordsAppend _ _ _ _ _ _)

theorem keepsN_closeCoords (junk : Nat → Byte) (i : Nat) : KeepsN (nwCloseCoords junk i) :=
  keepsN_bind keepsN_get fun _ => keepsN_ite (keepsN_fail _) (keepsN_nwB (keepsType_offsetAppend _ _ _))

theorem keepsN_count (i : Nat) : KeepsN (nwCount i) := keepsN_nwB (keepsType_bind (keepsType_bBuf _) fun _ => keepsType_pure _)

theorem keepsN_closeLists (junk : Nat → Byte) (i : Nat) : KeepsN (nwCloseLists junk i) :=
  keepsN_bind (keepsN_count _) fun _ => keepsN_nwB (keepsType_offsetAppend _ _ _)

theorem keepsN_closeSeq (junk : Nat → Byte) (i : Nat) : KeepsN (nwCloseSeq junk i) :=
  keepsN_bind keepsN_get fun _ => keepsN_ite (keepsN_bind (keepsN_closeCoords _ _) fun _ => keepsN_same fun _ => rfl) (keepsN_pure _)

theorem keepsN_closePolygon (junk : Nat → Byte) : KeepsN (nwClosePolygon junk) :=
  keepsN_bind keepsN_get fun _ => keepsN_ite (keepsN_bind (keepsN_closeLists _ _) fun _ => keepsN_same fun _ => rfl) (keepsN_pure _)

theorem keepsN_closeLine (junk : Nat → Byte) : KeepsN (nwCloseLine junk) :=
  keepsN_bind (keepsN_same fun _ => rfl) fun _ => keepsN_closeCoords _ _

theorem keepsN_point (junk : Nat → Byte) (e : Event) : KeepsN (nwPoint junk e) := by
  cases e with
  | featEnd =>
    exact keepsN_bind keepsN_get fun _ => keepsN_bind (keepsN_ite (keepsN_coords _ _ _ _) (keepsN_ite (keepsN_fail _) (keepsN_pure _))) fun _ =>
      keepsN_bind keepsN_get fun _ => keepsN_mark _ _ _
  | coords nv rows => exact keepsN_coords _ _ _ _
  | ringStart | ringEnd | geomEnd => exact keepsN_pure _
  | featStart | nullFeat | geomStart => exact keepsN_same fun _ => rfl

theorem keepsN_line (junk : Nat → Byte) (e : Event) : KeepsN (nwLine junk e) := by
  cases e with
  | featStart => exact keepsN_bind (keepsN_same fun _ => rfl) fun _ => keepsN_same fun _ => rfl
  | featEnd =>
    exact keepsN_bind keepsN_get fun _ => keepsN_bind (keepsN_ite (keepsN_closeCoords _ _) (keepsN_ite (keepsN_fail _) (keepsN_pure _))) fun _ =>
      keepsN_bind (keepsN_count _) fun _ => keepsN_bind keepsN_get fun _ => keepsN_mark _ _ _
  | coords nv rows => exact keepsN_coords _ _ _ _
  | ringEnd => exact keepsN_closeLine _
  | geomEnd => exact keepsN_bind keepsN_get fun _ => keepsN_ite (keepsN_same fun _ => rfl) (keepsN_ite (keepsN_closeLine _) (keepsN_pure _))
  | nullFeat | geomStart | ringStart => exact keepsN_same fun _ => rfl

theorem keepsN_poly (junk : Nat → Byte) (e : Event) : KeepsN (nwPoly junk e) := by
  cases e with
  | featEnd =>
    exact keepsN_bind keepsN_get fun _ => keepsN_bind (keepsN_ite (keepsN_closeCoords _ _) (keepsN_pure _)) fun _ =>
      keepsN_bind (keepsN_closeLists _ _) fun _ => keepsN_bind (keepsN_count _) fun _ => keepsN_bind keepsN_get fun _ => keepsN_mark _ _ _
  | coords nv rows => exact keepsN_coords _ _ _ _
  | ringEnd => exact keepsN_bind (keepsN_same fun _ => rfl) fun _ => keepsN_closeSeq _ _
  | geomEnd => exact keepsN_bind keepsN_get fun _ => keepsN_ite (keepsN_bind (keepsN_same fun _ => rfl) fun _ => keepsN_closeSeq _ _) (keepsN_pure _)
  | featStart | nullFeat | geomStart | ringStart => exact keepsN_same fun _ => rfl

theorem keepsN_multi (junk : Nat → Byte) (e : Event) : KeepsN (nwMulti junk e) := by
  cases e with
  | featEnd =>
    exact keepsN_bind keepsN_get fun _ => keepsN_bind (keepsN_ite (keepsN_bind (keepsN_closeCoords _ _) fun _ => keepsN_same fun _ => rfl) (keepsN_pure _)) fun _ =>
      keepsN_bind keepsN_get fun _ => keepsN_bind (keepsN_ite (keepsN_closeLists _ _) (keepsN_pure _)) fun _ =>
      keepsN_bind (keepsN_closeLists _ _) fun _ => keepsN_bind (keepsN_count _) fun _ => keepsN_bind keepsN_get fun _ => keepsN_mark _ _ _
  | coords nv rows => exact keepsN_coords _ _ _ _
  | ringEnd => exact keepsN_bind (keepsN_same fun _ => rfl) fun _ => keepsN_closeSeq _ _
  | geomEnd =>
    exact keepsN_bind keepsN_get fun _ => keepsN_ite (keepsN_bind (keepsN_same fun _ => rfl) fun _ => keepsN_closeSeq _ _)
      (keepsN_ite (keepsN_bind (keepsN_same fun _ => rfl) fun _ => keepsN_closePolygon _) (keepsN_pure _))
  | featStart | nullFeat | geomStart | ringStart => exact keepsN_same fun _ => rfl

theorem visitor_cases {junk : Nat → Byte} {w : NWriter} {h : Handler NWriter} (hv : nwInitVisitor junk w = .ok h) :
    (w.builder.schema.geometryType = 1 ∧ h = nwPoint junk) ∨
    ((w.builder.schema.geometryType = 4 ∨ w.builder.schema.geometryType = 2) ∧ h = nwLine junk) ∨
    ((w.builder.schema.geometryType = 5 ∨ w.builder.schema.geometryType = 3) ∧ h = nwPoly junk) ∨
    (w.builder.schema.geometryType = 6 ∧ h = nwMulti junk) := by
  unfold nwInitVisitor at hv
  dsimp only at hv
  by_cases h1 : w.builder.schema.geometryType = GT.point
  · rw [if_pos h1] at hv; cases hv; exact .inl ⟨h1, rfl⟩
  rw [if_neg h1] at hv
  by_cases h2 : w.builder.schema.geometryType = GT.multipoint ∨ w.builder.schema.geometryType = GT.linestring
  · rw [if_pos h2] at hv; cases hv; exact .inr (.inl ⟨h2, rfl⟩)
  rw [if_neg h2] at hv
  by_cases h3 : w.builder.schema.geometryType = GT.multilinestring ∨ w.builder.schema.geometryType = GT.polygon
  · rw [if_pos h3] at hv; cases hv; exact .inr (.inr (.inl ⟨h3, rfl⟩))
  rw [if_neg h3] at hv
  by_cases h4 : w.builder.schema.geometryType = GT.multipolygon
  · rw [if_pos h4] at hv; cases hv; exact .inr (.inr (.inr ⟨h4, rfl⟩))
  rw [if_neg h4] at hv
  cases hv

theorem keepsN_visitor {junk : Nat → Byte} {w : NWriter} {h : Handler NWriter} (hv : nwInitVisitor junk w = .ok h) (e : Event) : KeepsN (h e) := by
  rcases visitor_cases hv with ⟨-, rfl⟩ | ⟨-, rfl⟩ | ⟨-, rfl⟩ | ⟨-, rfl⟩
  · exact keepsN_point _ _
  · exact keepsN_line _ _
  · exact keepsN_poly _ _
  · exact keepsN_multi _ _

theorem nwInit_inv {junk : Nat → Byte} {t : TypeId} {w : NWriter} (h : nwInit junk t = .ok w) :
    ∃ b w0, builderInitFromType t = .ok b ∧ w0.builder = b ∧ nwEnsureInitialized junk w0 = .ok () w := by
  unfold nwInit at h
  cases hb : builderInitFromType t with
  | error rc => rw [hb] at h; cases h
  | ok b =>
    rw [hb] at h
    dsimp only at h
    split at h
    · rename_i hw
      cases h
      exact ⟨b, _, rfl, rfl, hw⟩
    · cases h
    · cases h

theorem nwriterOf_same {t : TypeId} {w : NWriter} (h : NWriterOf t w) : ∃ b0, builderInitFromType t = .ok b0 ∧ SameType b0 w.builder := by
  induction h with
  | init h =>
    obtain ⟨b, w0, h1, h2, h3⟩ := nwInit_inv h
    have := keepsN_ensure _ _ _ (by rw [h3]; rfl)
    rw [h2] at this
    exact ⟨b, h1, this⟩
  | visit _ hv h ih =>
    obtain ⟨b0, h1, h2⟩ := ih
    exact ⟨b0, h1, h2.trans (keepsN_visitor hv _ _ _ h)⟩
  | append _ h ih =>
    obtain ⟨b0, h1, h2⟩ := ih
    exact ⟨b0, h1, h2.trans (keepsN_append _ _ _ _ _ h)⟩
  | appendNull _ h ih =>
    obtain ⟨b0, h1, h2⟩ := ih
    exact ⟨b0, h1, h2.trans (keepsN_null _ _ _ h)⟩
  | finish _ h ih =>
    obtain ⟨b0, h1, h2⟩ := ih
    exact ⟨b0, h1, h2.trans (keepsN_finish _ _ _ h)⟩

theorem nwFinish_inv {junk : Nat → Byte} {w : NWriter} {a : AArray} {w' : NWriter} (h : nwFinish junk w = .ok a w') :
    ∃ w1, Blank w1.builder ∧ SameType w.builder w1.builder ∧ nwEnsureInitialized junk w1 = .ok () w' := by
  unfold nwFinish at h
  rw [M.bind_run, M.get_run] at h
  dsimp only at h
  obtain ⟨_, w2, h1, h2⟩ := M.bind_eq_ok.mp h
  obtain ⟨a', w1, h3, h4⟩ := M.bind_eq_ok.mp h2
  obtain ⟨_, w3, h5, h6⟩ := M.bind_eq_ok.mp h4
  cases h6
  have hs1 : SameType w.builder w2.builder := keepsN_ite (keepsN_nwB (keepsType_appendBuffer _ _ _)) (keepsN_pure _) _ _ (by rw [h1]; rfl)
  have hs2 := keepsN_nwB keepsType_finish _ _ (by rw [h3]; rfl : _ = some w1)
  refine ⟨w1, ?_, hs1.trans hs2, h5⟩
  unfold nwB at h3
  cases hf : bFinish w2.builder with
  | ok a b =>
    rw [hf] at h3
    cases h3
    show Blank b
    rw [(finish_inv hf).1]
    exact blank_fresh _
  | err rc b => rw [hf] at h3; cases h3
  | ub => rw [hf] at h3; cases h3

/-- A writer to which nothing has been written. -/
theorem start_nw {g : Int} (hg : 1 ≤ g ∧ g ≤ 6) {d : Dims} {k : CoordKind} {w : NWriter} (h : NWriterStart (nativeId g d k) w) :
    NW g d k w (fun _ => []) [] [] ∧ w.currentLength = 0 ∧ ∀ i, w.lastOffset i = 0 := by
  have key : ∀ {junk : Nat → Byte} {w1 w' : NWriter}, NativeB g d k w1.builder → Blank w1.builder → nwEnsureInitialized junk w1 = .ok () w' →
      NW g d k w' (fun _ => []) [] [] ∧ w'.currentLength = 0 ∧ ∀ i, w'.lastOffset i = 0 := by
    intro junk w1 w' hb hbl he
    obtain ⟨w2, h1, h2, -, h3⟩ := ensure_run junk hb hbl
    rw [he] at h1
    cases h1
    exact ⟨h2, h3⟩
  cases h with
  | init h =>
    obtain ⟨b, w0, h1, h2, h3⟩ := nwInit_inv h
    exact key (by rw [h2]; exact init_native hg h1) (by rw [h2]; exact blank_init h1) h3
  | finish h1 h2 =>
    obtain ⟨b0, h3, h4⟩ := nwriterOf_same h1
    obtain ⟨w1, h5, h6, h7⟩ := nwFinish_inv h2
    exact key ((init_native hg h3).of_same (h4.trans h6)) h5 h7

/-! ## Finishing -/

/-- A bitmap for these flags, or none. -/
def VBits (v : Option (List Byte)) (fl : List Bool) : Prop :=
  (v = none ∧ fl = List.replicate fl.length true) ∨ (∃ bs, v = some bs ∧ ∀ i b, fl[i]? = some b → bitGet bs i = some b)

theorem withNullCount_twice (a : AArray) (m n : Int) : (a.withNullCount m).withNullCount n = a.withNullCount n := by cases a; rfl

section
variable {g : Int} {d : Dims} {k : CoordKind} {w : NWriter} {ns : Nat → List Nat} {cs : List Coord} {fl : List Bool}

/-- Number of slots of level `i`. -/
def lenAt (g : Int) (ns : Nat → List Nat) (cs : List Coord) (i : Nat) : Nat := if i < listDepth g then (ns i).length else cs.length

theorem finish_nw (hg : 1 ≤ g ∧ g ≤ 6) (h : NW g d k w ns cs fl) (junk : Nat → Byte)
    (hsum : ∀ i, i < listDepth g → (ns i).sum < 2 ^ 31 ∧ (ns i).sum ≤ lenAt g ns cs (i + 1)) (hfl : lenAt g ns cs 0 = fl.length) :
    ∃ b v w', nwFinish junk w =
      .ok ((builtLists b.syncCoords (listDepth g) d k cs.length (fun i => sums (ns i)) (listDepth g) 0 v).withNullCount w.nullCount) w' ∧
      Built g d k b (fun i => sums (ns i)) cs ∧ VBits v fl ∧ NW g d k w' (fun _ => []) [] [] ∧ SameType w.builder w'.builder := by
  have hlt := numBuffers_pos (listDepth g) d k
  rw [← h.built.native.nBuffers] at hlt
  have hlev : ∀ i, levelLen (listDepth g) (fun i => sums (ns i)) cs.length i = lenAt g ns cs i := by
    intro i
    unfold levelLen lenAt
    split
    · rw [length_sums, Nat.add_sub_cancel]
    · rfl
  have ho : OffsOk (listDepth g) (fun i => sums (ns i)) cs.length := by
    constructor
    · intro i hi v hv
      obtain ⟨t, ht⟩ := List.mem_iff_getElem?.mp hv
      have htl : t < (sums (ns i)).length := (List.getElem?_eq_some_iff.mp ht).1
      rw [length_sums] at htl
      rw [getElem_sums _ (by omega)] at ht
      cases ht
      have := take_sum_le (ns i) t
      have := (hsum i hi).1
      omega
    · intro i v hi hv
      rw [length_sums, Nat.add_sub_cancel, getElem_sums _ (Nat.le_refl _), List.take_length] at hv
      cases hv
      rw [hlev]
      have := (hsum i hi).2
      omega
  -- the bitmap
  have key : ∃ b, (if 0 < w.validity.sizeBytes then nwB (bAppendBuffer junk 0 (w.validity.buf.take w.validity.sizeBytes)) else pure () : M NWriter Unit) w =
        .ok () { w with builder := b } ∧ Built g d k b (fun i => sums (ns i)) cs ∧ SameType w.builder b ∧
        (b.bufs 0).size ≤ (b.bufs 0).mem.length ∧ VBits (validityOf b) fl ∧ BitsFit (validityOf b) fl.length := by
    by_cases hz : 0 < w.validity.sizeBytes
    · rw [if_pos hz]
      have h0 : Has (w.builder.bufs 0) [] := by
        obtain ⟨b1, b2, b3⟩ := h.blank
        unfold Has
        rw [b1, b2, b3]
        exact ⟨rfl, Nat.le_refl _, rfl, rfl⟩
      obtain ⟨x, h1, h2⟩ := appendBuffer_run junk (w.validity.buf.take w.validity.sizeBytes) (by omega : 0 < w.builder.nBuffers) h0
      rcases h.bits with ⟨-, -, hz', -⟩ | ⟨hne, hh⟩
      · omega
      obtain ⟨v1, v2, v3, v4⟩ := hh
      rw [List.nil_append] at h2
      have hval : validityOf { w.builder with bufs := setAt w.builder.bufs 0 x } = some (w.validity.buf.take w.validity.sizeBytes) := by
        have e : ({ w.builder with bufs := setAt w.builder.bufs 0 x } : Builder).bufs 0 = x := setAt_get w.builder.bufs 0 x
        unfold validityOf bytesOf
        generalize hy : ({ w.builder with bufs := setAt w.builder.bufs 0 x } : Builder).bufs 0 = y at e
        subst e
        obtain ⟨x1, x2, x3, x4⟩ := h2
        rw [List.length_take] at x1
        have : y.mem ≠ [] := by
          intro hc
          rw [hc] at x2
          simp only [List.length_nil] at x2
          omega
        rw [if_neg this, x3]
      refine ⟨_, nwB_ok h1, ⟨h.built.native.of_same ⟨rfl, rfl, rfl, rfl, rfl, rfl⟩, ?_, coordsOk_setAt h.built.native h.built.coords (by omega) x⟩,
        ⟨rfl, rfl, rfl, rfl, rfl, rfl⟩, ?_, ?_, ?_⟩
      · intro i hi
        show Has (setAt w.builder.bufs 0 x (i + 1)) _
        rw [setAt_ne _ _ (by omega)]
        exact h.built.offsets i hi
      · show (setAt w.builder.bufs 0 x 0).size ≤ (setAt w.builder.bufs 0 x 0).mem.length
        rw [setAt_get]
        exact h2.2.1
      · refine .inr ⟨_, hval, fun i b hi => ?_⟩
        have hil : i < fl.length := (List.getElem?_eq_some_iff.mp hi).1
        have hb := bytesForBits_spec fl.length
        have h8 : i / 8 < w.validity.sizeBytes := by omega
        rw [bitGet_eq (by rw [List.length_take]; omega)]
        congr 1
        rw [← v4 i b hi]
        unfold bit
        simp only [List.getD_eq_getElem?_getD]
        rw [List.getElem?_take, if_pos h8]
      · intro vb hvb
        rw [hval] at hvb
        cases hvb
        right
        rw [List.length_take]
        omega
    · rw [if_neg hz]
      have hval : validityOf w.builder = none := by
        unfold validityOf
        rw [h.blank.1, if_pos rfl]
      refine ⟨w.builder, rfl, h.built, .rfl' _, by rw [h.blank.1, h.blank.2.1]; exact Nat.le_refl _, ?_, by rw [hval]; exact bitsFit_none _⟩
      rw [hval]
      left
      refine ⟨rfl, ?_⟩
      rcases h.bits with ⟨-, -, -, h4⟩ | ⟨-, hh⟩
      · exact h4
      · have h2 := hh.2.1
        have hb := bytesForBits_spec fl.length
        have : fl = [] := List.length_eq_zero_iff.mp (by omega)
        rw [this]
        rfl
  obtain ⟨b, e1, e2, e3, e4, e5, e6⟩ := key
  have hf := bFinish_run hg e2 ho e4 (by rw [hlev, hfl]; exact e6)
  obtain ⟨w', e7, e8, e9, -⟩ := ensure_run junk (w := { w with builder := b.syncCoords.fresh })
    (e2.native.of_same ((syncCoords_same b).trans (fresh_same _))) (blank_fresh _)
  refine ⟨b, validityOf b, w', ?_, e2, e5, e8, (e3.trans ((syncCoords_same b).trans (fresh_same _))).trans e9⟩
  unfold nwFinish
  rw [M.bind_run, M.get_run]
  dsimp only
  rw [M.bind_ok e1, M.bind_ok (nwB_ok (w := { w with builder := b }) hf), M.bind_ok e7, M.pure_run, withNullCount_twice]

/-! ## Reading -/

/-- Lists of these lengths, one after the other. -/
theorem parts_at {α : Type} {P : AArray → Nat → α → Prop} {a child : AArray} {xss : List (List α)} (ho : a.offset = 0)
    (hl : a.length = xss.length) (hb : a.buffers[1]? = some (some (i32Bytes (sums (xss.map List.length))))) (hc : a.children[0]? = some child)
    (hlen : (xss.flatten.length : Int) ≤ child.length) (hmax : xss.flatten.length < 2 ^ 31)
    (hP : ∀ t x, xss.flatten[t]? = some x → P child t x) {i : Nat} {xs : List α} (hi : xss[i]? = some xs) : PartsAt P a i xs := by
  obtain ⟨hil, hix⟩ := List.getElem?_eq_some_iff.mp hi
  have hsplit : xss = xss.take i ++ xs :: xss.drop (i + 1) := by
    rw [← hix, ← List.drop_eq_getElem_cons hil, List.take_append_drop]
  have hfl : xss.flatten = (xss.take i).flatten ++ (xs ++ (xss.drop (i + 1)).flatten) := by
    conv => lhs; rw [hsplit]
    rw [List.flatten_append, List.flatten_cons]
  have hlo : ((xss.map List.length).take i).sum = (xss.take i).flatten.length := by
    rw [← List.map_take, List.length_flatten]
  have hhi : ((xss.map List.length).take (i + 1)).sum = (xss.take i).flatten.length + xs.length := by
    rw [List.take_add_one, List.sum_append, hlo, List.getElem?_map, hi]
    simp
  have htot : xss.flatten.length = (xss.take i).flatten.length + (xs.length + (xss.drop (i + 1)).flatten.length) := by
    rw [hfl, List.length_append, List.length_append]
  refine ⟨(xss.take i).flatten.length, (xss.take i).flatten.length + xs.length, child, ⟨by rw [hl]; omega, hc, by omega, by omega, _, hb, ?_, ?_⟩, by omega, ?_⟩
  · rw [ho, Int.zero_add]
    refine i32At_i32Bytes (t := i) ?_ (by omega)
    rw [getElem_sums _ (by rw [List.length_map]; omega), hlo]
  · rw [ho, Int.zero_add]
    refine i32At_i32Bytes (t := i + 1) ?_ (by omega)
    rw [getElem_sums _ (by rw [List.length_map]; omega), hhi]
  · intro t x hx
    refine hP _ x ?_
    rw [hfl, List.getElem?_append_right (by omega), Nat.add_sub_cancel_left, List.getElem?_append_left (List.getElem?_eq_some_iff.mp hx).1]
    exact hx

end
end Verif
