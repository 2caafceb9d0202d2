import Verif.Proof.KernelApi
/-!
# Starting kernels: which schemas and options are accepted, and the schema of the output
-/
namespace Verif
open Spec

/-! ## Schemas that the library makes -/

mutual
/-- Every column has a format, and its size fits, if it is of fixed size. -/
def formatsFit : ASchema → Bool
  | .mk f _ _ _ cs _ =>
    (match f with
      | none => false
      | some t => decide (t.take 3 = str "+w:" → -2147483648 ≤ (strtol (t.drop 3)).1 ∧ (strtol (t.drop 3)).1 < 2147483648)) && formatsFitAll cs

def formatsFitAll : List ASchema → Bool
  | [] => true
  | c :: cs => formatsFit c && formatsFitAll cs
end

theorem formatsFitAll_mem {c : ASchema} : ∀ {cs : List ASchema}, formatsFitAll cs = true → c ∈ cs → formatsFit c = true
  | [], _, h => by cases h
  | d :: cs, h, hm => by
    unfold formatsFitAll at h
    rw [Bool.and_eq_true] at h
    rcases List.mem_cons.mp hm with rfl | hm
    · exact h.1
    · exact formatsFitAll_mem h.2 hm

theorem formatsFit_within {t s : ASchema} (hw : Within t s) (h : formatsFit s = true) : formatsFit t = true := by
  induction hw with
  | self => exact h
  | @child c s hc _ ih =>
    obtain ⟨f, n, m, fl, cs, d⟩ := s
    unfold formatsFit at h
    rw [Bool.and_eq_true] at h
    exact ih (formatsFitAll_mem h.2 hc)

theorem formatsFit_spec {s : ASchema} (h : formatsFit s = true) : HasFormats s ∧ SizesFit s := by
  refine ⟨fun t ht => ?_, fun t ht text n hf hn => ?_⟩
  · have := formatsFit_within ht h
    obtain ⟨f, nm, m, fl, cs, d⟩ := t
    unfold formatsFit at this
    rw [Bool.and_eq_true] at this
    cases f with
    | none => cases this.1
    | some f => simp [ASchema.format]
  · have := formatsFit_within ht h
    obtain ⟨f, nm, m, fl, cs, d⟩ := t
    cases hf
    unfold formatsFit at this
    rw [Bool.and_eq_true] at this
    have h1 := of_decide_eq_true this.1
    have e1 : List.take 3 (str "+w:" ++ text) = str "+w:" := rfl
    have e2 : List.drop 3 (str "+w:" ++ text) = text := rfl
    rw [e1, e2, strtol_of_text hn] at h1
    have h2 := h1 rfl
    unfold clampLong at h2
    dsimp only at h2
    omega

theorem created_formatsFit : ∀ t ∈ nativeTypes ++ serializedTypes, ∀ s, schemaInitExtension t = .ok s → formatsFit s = true := by
  have h : ∀ t ∈ nativeTypes ++ serializedTypes, (match schemaInitExtension t with | .ok s => formatsFit s | .error _ => true) = true := by
    decide +kernel
  intro t ht s hs
  have := h t ht
  rw [hs] at this
  exact this

theorem formatsFit_setMetadata {s : ASchema} {md : List (List Byte × List Byte)} (h : formatsFit s = true) : formatsFit (s.setMetadata md) = true := by
  obtain ⟨f, n, m, fl, cs, d⟩ := s
  unfold ASchema.setMetadata
  unfold formatsFit at h ⊢
  exact h

/-- A schema of a type made by the library and given extension metadata. -/
theorem inputType_stored {t : TypeId} {s : ASchema} (ht : t ∈ nativeTypes ++ serializedTypes) (hs : schemaInitExtension t = .ok s) (text : List Byte) :
    InputType (s.setMetadata (metadataSet (str "ARROW:extension:metadata") text s.metadata)) t ∧
    extensionMetadata (s.setMetadata (metadataSet (str "ARROW:extension:metadata") text s.metadata)) = text := by
  obtain ⟨h1, h2⟩ := formatsFit_spec (formatsFit_setMetadata (md := metadataSet (str "ARROW:extension:metadata") text s.metadata) (created_formatsFit t ht s hs))
  obtain ⟨s', e1, e2⟩ := stored_view ht text svZero
  rw [hs] at e1
  cases e1
  refine ⟨?_, ?_⟩
  · rcases C04_view_exact_partial _ h1 h2 svZero with ⟨ext, v, g1, g2, g3⟩ | ⟨-, v, g3⟩
    · rw [e2] at g3
      cases g3
      exact ⟨ext, _, g1, g2, rfl⟩
    · rw [e2] at g3; cases g3
  · unfold extensionMetadata
    rw [← metadataGet_first]
    have : (s.setMetadata (metadataSet (str "ARROW:extension:metadata") text s.metadata)).metadata =
        metadataSet (str "ARROW:extension:metadata") text s.metadata := by cases s; rfl
    rw [this, metadataGet_set]
    rfl

/-! ## Viewing metadata once is viewing them always -/

theorem metadataViewInit_rest {after : Option Byte} {n : Nat} {text : List Byte} {w : MdView} {rest : List Byte}
    (h : metadataViewInit after n text = .ok w rest) : rest = [] := by
  unfold metadataViewInit at h
  split at h
  · cases h; rfl
  · unfold metadataViewInitJson at h
    cases hp : parseJson after n ⟨0, 0, []⟩ (skipSpace text) with
    | ok w1 s =>
      rw [hp] at h
      simp only [PRes.bind] at h
      split at h
      · cases h
      · cases h; rfl
    | err => rw [hp] at h; cases h
    | oob => rw [hp] at h; cases h
    | stuck => rw [hp] at h; cases h

theorem views_of_ok {after : Option Byte} {n : Nat} {text : List Byte} {w : MdView} {rest : List Byte}
    (h : metadataViewInit after n text = .ok w rest) : Views text w := by
  have hr := metadataViewInit_rest h
  subst hr
  refine ⟨n, fun m hm after' => ?_⟩
  have e : ∀ a, metadataViewInit a n text = .ok w [] := by
    have hsome : metadataViewInit (some 0) n text = .ok w [] := by
      cases after with
      | none => rw [← (C46_only_bad_texts_read_behind text n 0).2 (by rw [h]; simp)]; exact h
      | some c => rw [(C46_terminated_partial text n 0 c).2]; exact h
    intro a
    cases a with
    | none =>
      by_cases hn : metadataViewInit none n text = .oob
      · rw [(C46_only_bad_texts_read_behind text n 0).1 hn] at hsome; cases hsome
      · rw [(C46_only_bad_texts_read_behind text n 0).2 hn]; exact hsome
    | some c => rw [(C46_terminated_partial text n c 0).2]; exact hsome
  obtain ⟨j, rfl⟩ := Nat.exists_eq_add_of_le hm
  rw [C46_steps text after' n j (by rw [e]; simp)]
  exact e after'

/-- What is viewed can be stored and viewed again. -/
theorem views_stored {after : Option Byte} {n : Nat} {text : List Byte} {w : MdView} {rest : List Byte}
    (h : metadataViewInit after n text = .ok w rest) :
    countBackslashes w = 0 ∧ ∃ w', Views (mdBytes w) w' ∧ w'.edge = w.edge ∧ w'.crsType = w.crsType ∧ (w.crsType ≠ 0 → w'.crs = w.crs) := by
  have hr := metadata_read h
  by_cases ht : w.crsType = 0
  · have hv := views_written w hr.edge hr.type (fun h => absurd ht h)
    exact ⟨by simp [countBackslashes, ht], _, hv, rfl, rfl, fun h => absurd ht h⟩
  · have hn := MdView.Read.plain hr (viewed_type h ht)
    have hs : Scans w.crs := by
      rcases hr.crs with h' | h'
      · exact absurd h' (viewed_type h ht)
      · exact h'.1
    have hv := views_written w hr.edge hr.type (fun _ => by simpa [hn] using hs)
    exact ⟨by simp [countBackslashes, hn], _, hv, rfl, rfl, fun _ => by simp [ht, hn]⟩

/-! ## box and box_agg -/

theorem schemaBox_ok {env : KEnv} {md : Option (List Byte)} {w : MdView} {rest : List Byte} (k : KObj)
    (h : metadataViewInit env.after ((md.getD []).length + 1) (md.getD []) = .ok w rest) (he : w.edge = 0) :
    ∃ out, schemaBox env md k = .ok out k ∧ InputType out (boxId .xy) ∧
      ∃ w', Views (md.getD []) w ∧ Views (extensionMetadata out) w' ∧ w'.edge = 0 ∧ w'.crsType = w.crsType ∧ (w.crsType ≠ 0 → w'.crs = w.crs) := by
  obtain ⟨hb, w', hv, h1, h2, h3⟩ := views_stored h
  obtain ⟨s, hs⟩ := (C03_created_types 990).mpr (by decide)
  obtain ⟨i1, i2⟩ := inputType_stored (by decide) hs (mdBytes w)
  refine ⟨s.setMetadata (metadataSet (str "ARROW:extension:metadata") (mdBytes w) s.metadata), ?_, i1, w', views_of_ok h, by rw [i2]; exact hv, by rw [h1, he], h2, h3⟩
  unfold schemaBox
  rw [h]
  dsimp only
  rw [if_neg (by rw [he]; decide), hs]
  dsimp only
  unfold schemaSetMetadata
  rw [mdAlloc_ok hb]
  rfl

theorem schemaBox_err {env : KEnv} {md : Option (List Byte)} (k : KObj) (h0 : (0 : Byte) ∉ md.getD [])
    (hb : env.after ≠ none ∨ ¬ ReadsBehind (md.getD [])) (hno : ¬ ∃ w, Views (md.getD []) w ∧ w.edge = 0) :
    schemaBox env md k = .err EINVAL k := by
  unfold schemaBox
  cases h : metadataViewInit env.after ((md.getD []).length + 1) (md.getD []) with
  | err => rfl
  | oob =>
    exfalso
    rcases hb with hb | hb
    · obtain ⟨c, hc⟩ := Option.ne_none_iff_exists'.mp hb
      rw [hc] at h
      exact (C46_terminated_partial _ _ c 0).1 h
    · cases ha : env.after with
      | some c => rw [ha] at h; exact (C46_terminated_partial _ _ c 0).1 h
      | none => rw [ha] at h; exact hb ⟨_, h⟩
  | stuck => exact absurd h (C46_returns_partial _ h0 _ _ (by omega)).1
  | ok w rest =>
    dsimp only
    rw [if_pos (fun he => hno ⟨w, views_of_ok h, he⟩)]
    rfl

/-! ## as_geoarrow -/

theorem asFinishStart_eq (env : KEnv) (print : Nat → Dbl → List Byte) (s : ASchema) (options : List (List Byte × List Byte)) (k : KObj)
    (hw : k.writer = none) :
    asGeoarrowFinishStart env print s options k =
      match kernelArg options (str "type") with
      | none => .err EINVAL k
      | some type =>
        match arrayWriterInit env.junk env.rawT env.rawB type with
        | .error rc => .err rc k
        | .ok w =>
          match arrayWriterInitVisitor env.junk print w with
          | .ub => .ub
          | .err rc w => .err rc { k with writer := some w }
          | .ok h w =>
            match asGeoarrowSchema type s with
            | .error rc => .err rc { k with writer := some w, visitor := some h }
            | .ok out => .ok out { k with writer := some w, visitor := some h } := by
  unfold asGeoarrowFinishStart
  rw [hw]
  rfl

theorem produce_mem {type : Int} (ht : CanProduce type) : type ∈ nativeTypes ++ serializedTypes := by
  rcases ht with rfl | rfl | ⟨g, d, k, h1, h2, rfl⟩
  · decide
  · decide
  · have : g = 1 ∨ g = 2 ∨ g = 3 ∨ g = 4 ∨ g = 5 ∨ g = 6 := by omega
    rcases this with rfl | rfl | rfl | rfl | rfl | rfl <;> cases d <;> cases k <;> decide +kernel

theorem asSchema_stored {type : Int} (ht : CanProduce type) {s : ASchema} (hs : ∃ t, InputType s t) :
    ∃ out, asGeoarrowSchema type s = .ok out ∧ InputType out type ∧ extensionMetadata out = extensionMetadata s := by
  obtain ⟨t, hs⟩ := hs
  obtain ⟨v, -, -, -, -, hv⟩ := view_of_inputType hs
  have hm := produce_mem ht
  obtain ⟨s0, hs0⟩ := (C03_created_types type).mpr hm
  have hna : ∃ na, naInit s = some na ∧ na.extMetadata = firstValue "ARROW:extension:metadata" s := by
    have hv0 := hv svZero
    unfold schemaViewInit at hv0
    obtain ⟨na, w, h1, -⟩ := M.bind_eq_ok.mp hv0
    unfold svNa at h1
    cases hn : naInit s with
    | none => rw [hn] at h1; cases h1
    | some na' => exact ⟨na', rfl, by rw [naInit_metadata hn]; exact metadataGet_first _ _⟩
  obtain ⟨na, h1, h2⟩ := hna
  obtain ⟨i1, i2⟩ := inputType_stored hm hs0 (extensionMetadata s)
  refine ⟨_, ?_, i1, i2⟩
  unfold asGeoarrowSchema
  rw [hs0]
  dsimp only
  unfold schemaSetMetadataFrom
  rw [h1]
  dsimp only
  rw [h2]
  rfl

/-- `asGeoarrowStart` is the same without the schema. -/
theorem asStart_cases (env : KEnv) (print : Nat → Dbl → List Byte) {s : ASchema} {options : List (List Byte × List Byte)} {k : KObj} {type : Int}
    (hw : k.writer = none) (ho : HasNumber options (str "type") type) (hs : ∃ t, InputType s t) :
    (CanProduce type → ∃ out k', asGeoarrowFinishStart env print s options k = .ok out k' ∧ InputType out type ∧ extensionMetadata out = extensionMetadata s) ∧
    (¬ CanProduce type → ∃ rc k', (rc = EINVAL ∨ rc = ENOTSUP) ∧ asGeoarrowFinishStart env print s options k = .err rc k') := by
  obtain ⟨c1, c2⟩ := C62_start env.junk print env.rawT env.rawB options type ho
  rw [asFinishStart_eq env print s options k hw]
  unfold asGeoarrowStart at c1 c2
  rw [kernelArg_number ho] at c1 c2 ⊢
  dsimp only at c1 c2 ⊢
  rw [if_neg (by decide)] at c1 c2
  refine ⟨fun hp => ?_, fun hp => ?_⟩
  · obtain ⟨h, w, e⟩ := c1 hp
    obtain ⟨out, e1, e2, e3⟩ := asSchema_stored hp hs
    cases hi : arrayWriterInit env.junk env.rawT env.rawB type with
    | error rc => rw [hi] at e; cases e
    | ok w0 =>
      rw [hi] at e
      dsimp only at e ⊢
      cases hv : arrayWriterInitVisitor env.junk print w0 with
      | ub => rw [hv] at e; cases e
      | err rc w => rw [hv] at e; cases e
      | ok hd w =>
        dsimp only
        rw [e1]
        exact ⟨_, _, rfl, e2, e3⟩
  · obtain ⟨rc, hrc, e⟩ := c2 hp
    cases hi : arrayWriterInit env.junk env.rawT env.rawB type with
    | error rc' => rw [hi] at e; cases e; exact ⟨_, _, hrc, rfl⟩
    | ok w0 =>
      rw [hi] at e
      dsimp only at e ⊢
      cases hv : arrayWriterInitVisitor env.junk print w0 with
      | ub => rw [hv] at e; cases e
      | err rc' w => rw [hv] at e; cases e; exact ⟨_, _, hrc, rfl⟩
      | ok hd w => rw [hv] at e; cases e

/-! ## All kernels -/

theorem start_noInput {s : ASchema} (hf : HasFormats s) (hz : SizesFit s) (hno : ¬ ∃ type, InputType s type) (env : KEnv)
    (print : Nat → Dbl → List Byte) (options : List (List Byte × List Byte)) (k : KObj) (hk : ¬ (k.name = .void ∨ k.name = .voidAgg)) :
    kernelStart env print s options k = .err EINVAL k := by
  unfold kernelStart
  rw [if_neg hk]
  rcases C04_view_exact_partial s hf hz svZero with ⟨ext, v, h1, h2, -⟩ | ⟨-, v, h⟩
  · exact absurd ⟨_, ext, v, h1, h2, rfl⟩ hno
  · rw [h]

/-! ## Histories -/

theorem kernelOf_of_ready {parse : List Byte → Option Dbl} {print : Nat → Dbl → List Byte} {name : List Byte} {s : ASchema}
    {options : List (List Byte × List Byte)} {k : KObj} (h : KernelReady parse print name s options k) : KernelOf parse print name s options k := by
  induction h with
  | start h0 h1 => exact .start h0 h1
  | push hk hp => exact .push hk (by rw [hp]; rfl)
  | finish _ hp ih => exact .finish ih hp

/-! ## Reading elements -/

theorem behaves_outcome {p : ∀ σ : Type, Handler σ → M σ Unit} {t t' : List Event} {o o' : Outcome Unit} (h : Behaves p t o) (h' : Behaves p t' o') :
    o = o' := by
  have e := (h Unit voidHandler ()).symm.trans (h' Unit voidHandler ())
  unfold replay at e
  rw [feed_voidHandler, feed_voidHandler] at e
  cases o <;> cases o' <;> cases e <;> rfl

theorem elementsRead_done {read : Read} (hu : ∀ b t o t' o', read b t o → read b t' o' → o = o') :
    ∀ {es : List (Option (List Byte))} {t : List Event} {o : Outcome Unit}, ElementsRead read es t o →
      (o = .done () ↔ ∀ b, some b ∈ es → ∃ t, read b t (.done ()))
  | [], t, o, h => ⟨fun _ b hb => absurd hb (by simp), fun _ => h.2⟩
  | none :: es, t, o, h => by
    obtain ⟨t', h', -⟩ := h
    rw [elementsRead_done hu h']
    simp
  | some b :: es, t, o, h => by
    obtain ⟨t1, o1, h1, h2⟩ := h
    rcases h2 with ⟨rfl, t2, h3, -⟩ | ⟨hne, rfl, -⟩
    · rw [elementsRead_done hu h3]
      refine ⟨fun h c hc => ?_, fun h c hc => h c (by simp [hc])⟩
      rcases List.mem_cons.mp hc with e | hc
      · cases e; exact ⟨t1, h1⟩
      · exact h c hc
    · refine ⟨fun h => absurd h hne, fun h => ?_⟩
      obtain ⟨t', h'⟩ := h b (by simp)
      exact hu _ _ _ _ _ h1 h'

theorem elementsRead_codes {read : Read} {rc : Code} (hc : ∀ b t o, read b t o → o = .done () ∨ o = .fail rc) :
    ∀ {es : List (Option (List Byte))} {t : List Event} {o : Outcome Unit}, ElementsRead read es t o → o = .done () ∨ o = .fail rc
  | [], t, o, h => .inl h.2
  | none :: es, t, o, h => by
    obtain ⟨t', h', -⟩ := h
    exact elementsRead_codes hc h'
  | some b :: es, t, o, h => by
    obtain ⟨t1, o1, h1, h2⟩ := h
    rcases h2 with ⟨rfl, t2, h3, -⟩ | ⟨hne, rfl, -⟩
    · exact elementsRead_codes hc h3
    · exact hc _ _ _ h1

end Verif
