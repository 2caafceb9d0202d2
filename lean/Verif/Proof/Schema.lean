import Verif.Spec.Schema
import Verif.Spec.TypeIds
import Verif.Proof.Hoare
/-! Schema views against the storage layouts. -/
namespace Verif
open Spec

theorem digitsFrom_all {ds : List Byte} (h : ∀ c ∈ ds, IsDigit c) (acc : Nat) :
    digitsFrom acc ds = (ds.foldl (fun a c => 10 * a + (c.toNat - 48)) acc, []) := by
  induction ds generalizing acc with
  | nil => rfl
  | cons c cs ih =>
    have hc := h c (by simp)
    have : cIsDigit c = true := by simp [cIsDigit, hc.1, hc.2]
    simp only [digitsFrom, this, if_true, List.foldl_cons]
    exact ih (fun x hx => h x (by simp [hx])) _

theorem digitsFrom_end {ds : List Byte} {acc : Nat} (h : (digitsFrom acc ds).2 = []) : ∀ c ∈ ds, IsDigit c := by
  induction ds generalizing acc with
  | nil => simp
  | cons c cs ih =>
    by_cases hc : cIsDigit c = true
    · simp only [digitsFrom, hc, if_true] at h
      intro x hx
      rcases List.mem_cons.1 hx with rfl | hx
      · simpa [cIsDigit, IsDigit] using hc
      · exact ih h x hx
    · simp [digitsFrom, hc] at h

theorem strtolDigits_all {s ds : List Byte} {neg : Bool} (hne : ds ≠ []) (h : ∀ c ∈ ds, IsDigit c) :
    strtolDigits s neg ds = (clampLong (if neg then -(decimal ds : Int) else decimal ds), []) := by
  cases ds with
  | nil => contradiction
  | cons c cs =>
    have hc := h c (by simp)
    have : cIsDigit c = true := by simp [cIsDigit, hc.1, hc.2]
    simp only [strtolDigits, this, if_true, digitsFrom_all h, decimal]

theorem strtolDigits_end {s ds : List Byte} {neg : Bool} (hs : s ≠ []) (h : (strtolDigits s neg ds).2 = []) :
    ds ≠ [] ∧ (∀ c ∈ ds, IsDigit c) := by
  cases ds with
  | nil => exact absurd h hs
  | cons c cs =>
    refine ⟨by simp, ?_⟩
    by_cases hc : cIsDigit c = true
    · simp only [strtolDigits, hc, if_true] at h
      exact digitsFrom_end h
    · simp only [strtolDigits, hc] at h
      exact absurd h hs

theorem mem_takeWhile {α : Type} {p : α → Bool} {l : List α} {x : α} (h : x ∈ l.takeWhile p) : p x = true := by
  induction l with
  | nil => simp at h
  | cons a l ih =>
    by_cases ha : p a = true
    · rw [List.takeWhile_cons, if_pos ha] at h
      rcases List.mem_cons.1 h with rfl | h
      · exact ha
      · exact ih h
    · simp [ha] at h

theorem isBlank_iff (c : Byte) : cIsSpace c = true ↔ IsBlank c := by
  simp [cIsSpace, IsBlank, or_assoc]

theorem dropWhile_blanks {bs rest : List Byte} (h : ∀ c ∈ bs, IsBlank c) (hr : ∀ c ∈ rest.head?, ¬ IsBlank c) :
    (bs ++ rest).dropWhile cIsSpace = rest := by
  induction bs with
  | nil =>
    cases rest with
    | nil => rfl
    | cons c cs =>
      have : cIsSpace c = false := by
        have := hr c (by simp)
        rw [← isBlank_iff] at this
        simpa using this
      simp [this]
  | cons b bs ih =>
    have : cIsSpace b = true := (isBlank_iff b).2 (h b (by simp))
    simp only [List.cons_append, List.dropWhile_cons, this, if_true]
    exact ih (fun x hx => h x (by simp [hx]))

theorem digit_not_blank {c : Byte} (h : IsDigit c) : ¬ IsBlank c := by
  intro hb
  rcases hb with rfl | rfl | rfl | rfl | rfl | rfl <;> simp [IsDigit] at h

theorem strtol_of_text {text : List Byte} {n : Int} (h : NumberText text n) : strtol text = (clampLong n, []) := by
  obtain ⟨bs, sg, ds, rfl, hb, hne, hd, hs⟩ := h
  obtain ⟨c, cs, rfl⟩ := List.exists_cons_of_ne_nil hne
  have hc := hd c (by simp)
  rcases hs with ⟨rfl | rfl, rfl⟩ | ⟨rfl, rfl⟩
  · have hdrop : (bs ++ [] ++ c :: cs).dropWhile cIsSpace = c :: cs := by
      rw [List.append_nil]
      exact dropWhile_blanks hb (by simpa using digit_not_blank hc)
    unfold strtol
    rw [hdrop]
    split
    · rename_i e
      cases e
      simp [IsDigit] at hc
    · rename_i e
      cases e
      simp [IsDigit] at hc
    · exact strtolDigits_all hne hd
  · have hdrop : (bs ++ str "+" ++ c :: cs).dropWhile cIsSpace = 43 :: c :: cs := by
      rw [List.append_assoc]
      exact dropWhile_blanks hb (by intro x hx; cases hx; show ¬ IsBlank (_ : Byte); unfold IsBlank; decide)
    unfold strtol
    rw [hdrop]
    exact strtolDigits_all hne hd
  · have hdrop : (bs ++ str "-" ++ c :: cs).dropWhile cIsSpace = 45 :: c :: cs := by
      rw [List.append_assoc]
      exact dropWhile_blanks hb (by intro x hx; cases hx; show ¬ IsBlank (_ : Byte); unfold IsBlank; decide)
    unfold strtol
    rw [hdrop]
    exact strtolDigits_all hne hd

theorem text_of_strtol {text : List Byte} (hne : text ≠ []) (h : (strtol text).2 = []) :
    ∃ n, NumberText text n ∧ (strtol text).1 = clampLong n := by
  suffices hh : ∃ n, NumberText text n by
    obtain ⟨n, hn⟩ := hh
    exact ⟨n, hn, by rw [strtol_of_text hn]⟩
  have hb : ∀ c ∈ text.takeWhile cIsSpace, IsBlank c := by
    intro c hc
    exact (isBlank_iff c).1 (mem_takeWhile hc)
  have ht := (List.takeWhile_append_dropWhile (p := cIsSpace) (l := text)).symm
  unfold strtol at h
  split at h
  · rename_i cs e
    obtain ⟨h1, h2⟩ := strtolDigits_end hne h
    exact ⟨_, text.takeWhile cIsSpace, str "-", cs, by rw [e] at ht; rw [List.append_assoc]; exact ht, hb, h1, h2, .inr ⟨rfl, rfl⟩⟩
  · rename_i cs e
    obtain ⟨h1, h2⟩ := strtolDigits_end hne h
    exact ⟨_, text.takeWhile cIsSpace, str "+", cs, by rw [e] at ht; rw [List.append_assoc]; exact ht, hb, h1, h2, .inl ⟨.inr rfl, rfl⟩⟩
  · obtain ⟨h1, h2⟩ := strtolDigits_end hne h
    exact ⟨_, text.takeWhile cIsSpace, [], text.dropWhile cIsSpace, by rw [List.append_nil]; exact ht, hb, h1, h2, .inl ⟨.inl rfl, rfl⟩⟩

theorem toInt32_clamp {n : Int} (h : -2147483648 ≤ n ∧ n < 2147483648) : toInt32 (clampLong n) = n := by
  have : clampLong n = n := by
    unfold clampLong
    rw [if_neg (by omega), if_neg (by omega)]
  rw [this]
  unfold toInt32
  omega

theorem text_ne_nil {text : List Byte} {n : Int} (h : NumberText text n) : text ≠ [] := by
  obtain ⟨bs, sg, ds, rfl, _, hne, _⟩ := h
  simp [hne]

theorem naParse_fixed {text : List Byte} {n : Int} (h : NumberText text n) (hf : -2147483648 ≤ n ∧ n < 2147483648) :
    naParse (str "+w:" ++ text) = some (.fixedSizeList, n) := by
  obtain ⟨c, cs, rfl⟩ := List.exists_cons_of_ne_nil (text_ne_nil h)
  unfold naParse
  simp [str, strtol_of_text h, toInt32_clamp hf]

theorem naParse_fixed_inv {text : List Byte} {ty : NaType} {n : Int} (h : naParse (str "+w:" ++ text) = some (ty, n))
    (hf : ∀ k, NumberText text k → -2147483648 ≤ k ∧ k < 2147483648) : ty = .fixedSizeList ∧ NumberText text n := by
  cases text with
  | nil =>
    have : naParse (str "+w:" ++ []) = none := by decide
    rw [this] at h
    cases h
  | cons c cs =>
    unfold naParse at h
    simp [str] at h
    obtain ⟨h1, h2, h3⟩ := h
    obtain ⟨k, hk, he⟩ := text_of_strtol (by simp) h1
    rw [he, toInt32_clamp (hf k hk)] at h3
    exact ⟨h2.symm, h3 ▸ hk⟩

/-! ## Dimensions -/

theorem svDimsOf_label (d : Dims) : svDimsOf d.label = some (d.code : Int) := by
  cases d <;> decide

theorem svDimsOf_inv {name : List Byte} {d : Int} (h : svDimsOf name = some d) : ∃ d' : Dims, name = d'.label ∧ d = d'.code := by
  unfold svDimsOf at h
  by_cases h1 : name = str "xy"
  · rw [if_pos h1] at h; cases h; exact ⟨.xy, h1, rfl⟩
  rw [if_neg h1] at h
  by_cases h2 : name = str "xyz"
  · rw [if_pos h2] at h; cases h; exact ⟨.xyz, h2, rfl⟩
  rw [if_neg h2] at h
  by_cases h3 : name = str "xym"
  · rw [if_pos h3] at h; cases h; exact ⟨.xym, h3, rfl⟩
  rw [if_neg h3] at h
  by_cases h4 : name = str "xyzm"
  · rw [if_pos h4] at h; cases h; exact ⟨.xyzm, h4, rfl⟩
  rw [if_neg h4] at h
  cases h

theorem svDimsOf_none {name : List Byte} (h : svDimsOf name = none) (d : Dims) : name ≠ d.label := by
  rintro rfl
  rw [svDimsOf_label] at h
  cases h

theorem svGuess_dims {d : Dims} (h : d ≠ .xym) : svGuess d.n = some (d.code : Int) := by
  cases d <;> first | decide | contradiction

theorem svGuess_inv {k d : Int} (h : svGuess k = some d) : ∃ d' : Dims, d' ≠ .xym ∧ k = d'.n ∧ d = d'.code := by
  unfold svGuess at h
  by_cases h1 : k = 2
  · rw [if_pos h1] at h; cases h; exact ⟨.xy, by decide, h1, rfl⟩
  rw [if_neg h1] at h
  by_cases h2 : k = 3
  · rw [if_pos h2] at h; cases h; exact ⟨.xyz, by decide, h2, rfl⟩
  rw [if_neg h2] at h
  by_cases h3 : k = 4
  · rw [if_pos h3] at h; cases h; exact ⟨.xyzm, by decide, h3, rfl⟩
  rw [if_neg h3] at h
  cases h

theorem numDimensions_code (d : Dims) : numDimensions d.code = some (d.n : Int) := by
  cases d <;> decide

/-! ## nanoarrow -/

theorem naInit_some {s : ASchema} {f : List Byte} {ty : NaType} {n : Int} (hf : s.format = some f) (hp : naParse f = some (ty, n))
    (hs : Plain s) (hc : naChildrenOk ty s.children.length = true) :
    naInit s = some { type := ty, fixedSize := n, extName := metadataGet (str "ARROW:extension:name") s.metadata,
                      extMetadata := metadataGet (str "ARROW:extension:metadata") s.metadata } := by
  unfold naInit
  simp only [hf, hp, hs.1, hc, if_pos hs.2, Bool.false_eq_true, if_false, if_true]

theorem naInit_inv {s : ASchema} {v : NaView} (h : naInit s = some v) :
    ∃ f, s.format = some f ∧ naParse f = some (v.type, v.fixedSize) ∧ Plain s ∧ naChildrenOk v.type s.children.length = true ∧
      v.extName = metadataGet (str "ARROW:extension:name") s.metadata ∧
      v.extMetadata = metadataGet (str "ARROW:extension:metadata") s.metadata := by
  unfold naInit at h
  cases hf : s.format with
  | none => rw [hf] at h; cases h
  | some f =>
    simp only [hf] at h
    cases hp : naParse f with
    | none => rw [hp] at h; cases h
    | some p =>
      obtain ⟨ty, n⟩ := p
      simp only [hp] at h
      by_cases hd : s.dictionary = true
      · rw [if_pos hd] at h; cases h
      rw [if_neg hd] at h
      by_cases hc : naChildrenOk ty s.children.length = true
      · rw [if_pos hc] at h
        by_cases hfl : s.flags = 0 ∨ s.flags = 2
        · rw [if_pos hfl] at h
          cases h
          exact ⟨f, rfl, hp, ⟨by simpa using hd, hfl⟩, hc, rfl, rfl⟩
        · rw [if_neg hfl] at h; cases h
      · rw [if_neg hc] at h; cases h

theorem metadataGet_first (key : String) (s : ASchema) : metadataGet (str key) s.metadata = firstValue key s := by
  unfold firstValue
  generalize s.metadata = m
  induction m with
  | nil => rfl
  | cons kv rest ih =>
    obtain ⟨k, v⟩ := kv
    by_cases h : k = str key
    · simp [metadataGet, h]
    · simp only [metadataGet, if_neg h, List.find?_cons, decide_eq_false h]
      exact ih

/-! ## Coordinates -/

theorem svFormatIs_run {s : ASchema} {f t : List Byte} {v : SView} (h : s.format = some f) : svFormatIs s t v = .ok (decide (f = t)) v := by
  simp [svFormatIs, h]

/-- Formats are present below as well. -/
theorem Spec.HasFormats.child {s c : ASchema} (h : HasFormats s) (hc : c ∈ s.children) : HasFormats c :=
  fun t ht => h t (.child hc ht)

theorem Spec.SizesFit.child {s c : ASchema} (h : SizesFit s) (hc : c ∈ s.children) : SizesFit c :=
  fun t ht => h t (.child hc ht)

theorem Spec.HasFormats.self {s : ASchema} (h : HasFormats s) : ∃ f, s.format = some f := by
  have := h s (.self s)
  cases hf : s.format with
  | none => exact absurd hf this
  | some f => exact ⟨f, rfl⟩

theorem svFixed_ok {s : ASchema} {d : Dims} (h : Interleaved d s) (v : SView) :
    svFixedSizeList s v = .ok () { v with dimensions := d.code, coordType := 2 } := by
  obtain ⟨hp, text, c, hf, ht, hch, hg, hn⟩ := h
  have hfit : -2147483648 ≤ (d.n : Int) ∧ (d.n : Int) < 2147483648 := by cases d <;> decide
  have hna := naInit_some hf (naParse_fixed ht hfit) hp (by simp [naChildrenOk, hch])
  have hd : (svDimsOf (c.name.getD (str "<NULL>"))).or (svGuess (d.n : Int)) = some (d.code : Int) := by
    rcases hn with hn | ⟨hn, hx⟩
    · simp [hn, svDimsOf_label]
    · have : svDimsOf (c.name.getD (str "<NULL>")) = none := by
        cases hs : svDimsOf (c.name.getD (str "<NULL>")) with
        | none => rfl
        | some k =>
          obtain ⟨d', hd', _⟩ := svDimsOf_inv hs
          cases hcn : c.name with
          | none =>
            rw [hcn] at hd'
            cases d' <;> exact absurd hd' (by decide)
          | some nm =>
            rw [hcn] at hd'
            exact absurd (hcn.trans (congrArg some hd')) (hn d')
      rw [this, svGuess_dims hx]
      rfl
  unfold svFixedSizeList
  rw [hch]
  simp only []
  rw [M.bind_ok (svFormatIs_run hg)]
  simp only [decide_true, Bool.not_true, Bool.false_eq_true, if_false]
  rw [M.bind_ok (m := svNa s) (by unfold svNa; rw [hna]; rfl)]
  simp only [hd]
  rw [M.bind_ok (M.modify_run _ _)]
  simp only [numDimensions_code, ne_eq, not_true_eq_false, if_false]
  rfl

theorem svFixed_inv {s : ASchema} (hs : HasFormats s) (hz : SizesFit s) {text : List Byte} (hf : s.format = some (str "+w:" ++ text))
    (v : SView) :
    (svFixedSizeList s v).Post (fun _ v' => ∃ d, Interleaved d s ∧ v' = { v with dimensions := (d.code : Int), coordType := 2 })
      (fun rc _ => rc = EINVAL) := by
  unfold svFixedSizeList
  rcases hch : s.children with _ | ⟨c, _ | ⟨c2, cs⟩⟩
  · exact rfl
  rotate_left
  · exact rfl
  · obtain ⟨fc, hfc⟩ := (hs.child (c := c) (by simp [hch])).self
    dsimp only
    rw [M.bind_ok (svFormatIs_run hfc)]
    by_cases hg : fc = str "g"
    rotate_left
    · simp only [hg, decide_false, Bool.not_false, if_true]
      exact rfl
    subst hg
    simp only [decide_true, Bool.not_true, Bool.false_eq_true, if_false]
    cases hna : naInit s with
    | none => rw [M.bind_err (m := svNa s) (by unfold svNa; rw [hna]; rfl)]; exact rfl
    | some na =>
      rw [M.bind_ok (m := svNa s) (by unfold svNa; rw [hna]; rfl)]
      obtain ⟨f, hf', hp, hpl, -, -, -⟩ := naInit_inv hna
      rw [hf] at hf'
      cases hf'
      obtain ⟨-, hnt⟩ := naParse_fixed_inv hp (hz s (.self s) text · hf)
      cases hd : (svDimsOf (c.name.getD (str "<NULL>"))).or (svGuess na.fixedSize) with
      | none => exact rfl
      | some k =>
        simp only []
        rw [M.bind_ok (M.modify_run _ _)]
        cases hl : svDimsOf (c.name.getD (str "<NULL>")) with
        | some k' =>
          rw [hl] at hd
          cases hd
          obtain ⟨d, hd, rfl⟩ := svDimsOf_inv hl
          simp only [numDimensions_code]
          by_cases he : (d.n : Int) ≠ na.fixedSize
          · rw [if_pos he]; exact rfl
          rw [if_neg he]
          have he : (d.n : Int) = na.fixedSize := by omega
          refine ⟨d, ⟨hpl, text, c, hf, he ▸ hnt, hch, hfc, .inl ?_⟩, rfl⟩
          cases hcn : c.name with
          | none =>
            rw [hcn] at hd
            cases d <;> exact absurd hd (by decide)
          | some nm => rw [hcn] at hd; exact congrArg some hd
        | none =>
          rw [hl] at hd
          obtain ⟨d, hx, hk, rfl⟩ := svGuess_inv hd
          simp only [numDimensions_code, hk, ne_eq, not_true_eq_false, if_false]
          refine ⟨d, ⟨hpl, text, c, hf, hk ▸ hnt, hch, hfc, .inr ⟨?_, hx⟩⟩, rfl⟩
          intro d' hcn
          rw [hcn] at hl
          exact svDimsOf_none hl d' rfl

theorem svStructNames_ok {cs : List ASchema} {names : List Byte} (hn : cs.map ASchema.name = (names.map fun x => [x]).map some)
    (hf : ∀ c ∈ cs, c.format = some (str "g")) (v : SView) : svStructNames cs v = .ok names v := by
  induction cs generalizing names with
  | nil =>
    cases names with
    | nil => rfl
    | cons x xs => simp at hn
  | cons c cs ih =>
    cases names with
    | nil => simp at hn
    | cons x xs =>
      simp only [List.map_cons, List.cons.injEq] at hn
      unfold svStructNames
      simp only [hn.1]
      rw [M.bind_ok (svFormatIs_run (hf c (by simp)))]
      simp only [decide_true, Bool.not_true, Bool.false_eq_true, if_false]
      rw [M.bind_ok (ih (names := xs) hn.2 (fun y hy => hf y (by simp [hy])))]
      rfl

theorem svStructNames_inv {cs : List ASchema} (hs : ∀ c ∈ cs, HasFormats c) (v : SView) :
    (svStructNames cs v).Post (fun names v' => v' = v ∧ cs.map ASchema.name = (names.map fun x => [x]).map some ∧
        ∀ c ∈ cs, c.format = some (str "g")) (fun rc _ => rc = EINVAL) := by
  induction cs with
  | nil => exact ⟨rfl, rfl, by simp⟩
  | cons c cs ih =>
    unfold svStructNames
    rcases hn : c.name with _ | (_ | ⟨x, _ | ⟨x2, xs⟩⟩)
    · exact rfl
    · exact rfl
    rotate_left
    · exact rfl
    · obtain ⟨fc, hfc⟩ := (hs c (by simp)).self
      dsimp only
      rw [M.bind_ok (svFormatIs_run hfc)]
      by_cases hg : fc = str "g"
      rotate_left
      · simp only [hg, decide_false, Bool.not_false, if_true]
        exact rfl
      subst hg
      simp only [decide_true, Bool.not_true, Bool.false_eq_true, if_false]
      refine post_bind (ih fun y hy => hs y (by simp [hy])) ?_
      rintro names v' ⟨rfl, h1, h2⟩
      refine ⟨rfl, by simp [hn, h1], ?_⟩
      intro y hy
      rcases List.mem_cons.1 hy with rfl | hy
      · exact hfc
      · exact h2 y hy

theorem separate_names (d : Dims) : (d.axes.map fun a => [a.letter]) = d.label.map fun x => [x] := by
  simp [Dims.label]

theorem svStruct_ok {s : ASchema} {d : Dims} (h : Separate d s) (v : SView) :
    svStruct s v = .ok () { v with dimensions := (d.code : Int), coordType := 1 } := by
  obtain ⟨_, hn, hg⟩ := h
  have hl : s.children.length = d.axes.length := by
    have := congrArg List.length hn
    simpa using this
  unfold svStruct
  rw [if_neg (by rw [hl]; cases d <;> decide)]
  rw [separate_names] at hn
  rw [M.bind_ok (svStructNames_ok hn hg v)]
  simp only [svDimsOf_label]
  rfl

theorem svStruct_inv {s : ASchema} (hs : HasFormats s) (hf : s.format = some (str "+s")) (v : SView) :
    (svStruct s v).Post (fun _ v' => ∃ d, Separate d s ∧ v' = { v with dimensions := (d.code : Int), coordType := 1 })
      (fun rc _ => rc = EINVAL) := by
  unfold svStruct
  by_cases hl : s.children.length < 2 ∨ s.children.length > 4
  · rw [if_pos hl]; exact rfl
  rw [if_neg hl]
  refine post_bind (svStructNames_inv (fun c hc => hs.child hc) v) ?_
  rintro names v' ⟨rfl, h1, h2⟩
  cases hd : svDimsOf names with
  | none => exact rfl
  | some k =>
    obtain ⟨d, rfl, rfl⟩ := svDimsOf_inv hd
    exact ⟨d, ⟨hf, by rw [separate_names]; exact h1, h2⟩, rfl⟩

theorem isFixed_inv {f : List Byte} (h : isFixedSizeFormat f = true) : ∃ text, f = str "+w:" ++ text := by
  unfold isFixedSizeFormat at h
  split at h
  · exact ⟨_, rfl⟩
  · cases h

/-! ## Nesting -/

theorem svNested_ok {n : Nat} {s : ASchema} {d : Dims} {ct : Int} (h : Lists d ct n s) (v : SView) :
    svNested n s v = .ok () { v with dimensions := (d.code : Int), coordType := ct } := by
  induction n generalizing s with
  | zero =>
    rcases h with ⟨rfl, h⟩ | ⟨rfl, h⟩
    · unfold svNested
      simp only [h.1, if_true]
      exact svStruct_ok h v
    · obtain ⟨text, c, hf, -⟩ := h.2
      unfold svNested
      have hne : ¬ (str "+w:" ++ text = str "+s") := by simp [str]
      have hx : isFixedSizeFormat (str "+w:" ++ text) = true := rfl
      simp only [hf, if_neg hne, hx, if_true]
      exact svFixed_ok h v
  | succ n ih =>
    obtain ⟨hf, c, hc, hl⟩ := h
    unfold svNested
    simp only [hf, if_true, hc]
    exact ih hl

theorem svNested_inv {n : Nat} {s : ASchema} (hs : HasFormats s) (hz : SizesFit s) (v : SView) :
    (svNested n s v).Post (fun _ v' => ∃ d ct, Lists d ct n s ∧ v' = { v with dimensions := (d.code : Int), coordType := ct })
      (fun rc _ => rc = EINVAL) := by
  induction n generalizing s with
  | zero =>
    obtain ⟨f, hf⟩ := hs.self
    unfold svNested
    simp only [hf]
    by_cases h1 : f = str "+s"
    · subst h1
      rw [if_pos rfl]
      exact (svStruct_inv hs hf v).imp (fun _ _ ⟨d, h, e⟩ => ⟨d, 1, .inl ⟨rfl, h⟩, e⟩) (fun _ _ h => h)
    rw [if_neg h1]
    by_cases h2 : isFixedSizeFormat f = true
    · rw [if_pos h2]
      obtain ⟨text, rfl⟩ := isFixed_inv h2
      exact (svFixed_inv hs hz hf v).imp (fun _ _ ⟨d, h, e⟩ => ⟨d, 2, .inr ⟨rfl, h⟩, e⟩) (fun _ _ h => h)
    rw [if_neg h2]
    exact rfl
  | succ n ih =>
    obtain ⟨f, hf⟩ := hs.self
    unfold svNested
    simp only [hf]
    by_cases h1 : f = str "+l"
    · subst h1
      rw [if_pos rfl]
      rcases hc : s.children with _ | ⟨c, _ | ⟨c2, cs⟩⟩
      · exact rfl
      rotate_left
      · exact rfl
      · refine (ih (hs.child (by simp [hc])) (hz.child (by simp [hc]))).imp ?_ (fun _ _ h => h)
        rintro _ _ ⟨d, ct, h, e⟩
        exact ⟨d, ct, ⟨hf, c, hc, h⟩, e⟩
    rw [if_neg h1]
    exact rfl

/-! ## Boxes -/

theorem svBoxChild_ok {c : ASchema} {x : Byte} {sfx : List Byte} (hl : sfx.length = 3) (hn : c.name = some (x :: sfx))
    (hf : c.format = some (str "g")) (v : SView) : svBoxChild sfx c v = .ok x v := by
  match sfx, hl with
  | [a, b, e], _ =>
    unfold svBoxChild
    simp only [hn]
    rw [M.bind_ok (svFormatIs_run hf)]
    simp only [decide_true, Bool.not_true, Bool.false_eq_true, if_false, if_true]
    rfl

theorem svBoxChild_inv {c : ASchema} {sfx : List Byte} (hs : HasFormats c) (v : SView) :
    (svBoxChild sfx c v).Post (fun x v' => v' = v ∧ c.name = some (x :: sfx) ∧ c.format = some (str "g")) (fun rc _ => rc = EINVAL) := by
  unfold svBoxChild
  rcases hn : c.name with _ | (_ | ⟨x, _ | ⟨a, _ | ⟨b, _ | ⟨e, _ | ⟨x2, xs⟩⟩⟩⟩⟩)
  · exact rfl
  · exact rfl
  · exact rfl
  · exact rfl
  · exact rfl
  rotate_left
  · exact rfl
  · obtain ⟨fc, hfc⟩ := hs.self
    dsimp only
    rw [M.bind_ok (svFormatIs_run hfc)]
    by_cases hg : fc = str "g"
    rotate_left
    · simp only [hg, decide_false, Bool.not_false, if_true]
      exact rfl
    subst hg
    simp only [decide_true, Bool.not_true, Bool.false_eq_true, if_false]
    by_cases h : [a, b, e] = sfx
    · rw [if_pos h]
      exact ⟨rfl, by rw [← h], hfc⟩
    · rw [if_neg h]; exact rfl

theorem svBoxMins_ok {cs : List ASchema} {xs : List Byte} (hn : cs.map ASchema.name = (xs.map fun x => x :: str "min").map some)
    (hf : ∀ c ∈ cs, c.format = some (str "g")) (v : SView) : svBoxMins cs v = .ok xs v := by
  induction cs generalizing xs with
  | nil =>
    cases xs with
    | nil => rfl
    | cons x xs => simp at hn
  | cons c cs ih =>
    cases xs with
    | nil => simp at hn
    | cons x xs =>
      simp only [List.map_cons, List.cons.injEq] at hn
      unfold svBoxMins
      rw [M.bind_ok (svBoxChild_ok rfl hn.1 (hf c (by simp)) v)]
      rw [M.bind_ok (ih (xs := xs) hn.2 (fun y hy => hf y (by simp [hy])))]
      rfl

theorem svBoxMins_inv {cs : List ASchema} (hs : ∀ c ∈ cs, HasFormats c) (v : SView) :
    (svBoxMins cs v).Post (fun xs v' => v' = v ∧ cs.map ASchema.name = (xs.map fun x => x :: str "min").map some ∧
        ∀ c ∈ cs, c.format = some (str "g")) (fun rc _ => rc = EINVAL) := by
  induction cs with
  | nil => exact ⟨rfl, rfl, by simp⟩
  | cons c cs ih =>
    unfold svBoxMins
    refine post_bind (svBoxChild_inv (hs c (by simp)) v) ?_
    rintro x v' ⟨rfl, hn, hfc⟩
    refine post_bind (ih fun y hy => hs y (by simp [hy])) ?_
    rintro xs v' ⟨rfl, h1, h2⟩
    refine ⟨rfl, by simp [hn, h1], ?_⟩
    intro y hy
    rcases List.mem_cons.1 hy with rfl | hy
    · exact hfc
    · exact h2 y hy

theorem svBoxMaxs_ok {cs : List ASchema} {xs : List Byte} (hn : cs.map ASchema.name = (xs.map fun x => x :: str "max").map some)
    (hf : ∀ c ∈ cs, c.format = some (str "g")) (v : SView) : svBoxMaxs xs cs v = .ok () v := by
  induction cs generalizing xs with
  | nil => cases xs <;> rfl
  | cons c cs ih =>
    cases xs with
    | nil => simp at hn
    | cons x xs =>
      simp only [List.map_cons, List.cons.injEq] at hn
      unfold svBoxMaxs
      rw [M.bind_ok (svBoxChild_ok rfl hn.1 (hf c (by simp)) v)]
      rw [if_neg (by simp)]
      exact ih (xs := xs) hn.2 (fun y hy => hf y (by simp [hy]))

theorem svBoxMaxs_inv {cs : List ASchema} {xs : List Byte} (hl : cs.length = xs.length) (hs : ∀ c ∈ cs, HasFormats c) (v : SView) :
    (svBoxMaxs xs cs v).Post (fun _ v' => v' = v ∧ cs.map ASchema.name = (xs.map fun x => x :: str "max").map some ∧
        ∀ c ∈ cs, c.format = some (str "g")) (fun rc _ => rc = EINVAL) := by
  induction cs generalizing xs with
  | nil =>
    cases xs with
    | nil => exact ⟨rfl, rfl, by simp⟩
    | cons x xs => simp at hl
  | cons c cs ih =>
    cases xs with
    | nil => simp at hl
    | cons x xs =>
      unfold svBoxMaxs
      refine post_bind (svBoxChild_inv (hs c (by simp)) v) ?_
      rintro y v' ⟨rfl, hn, hfc⟩
      by_cases hxy : y ≠ x
      · rw [if_pos hxy]; exact rfl
      rw [if_neg hxy]
      have hxy : y = x := by simpa using hxy
      subst hxy
      refine (ih (by simpa using hl) (fun z hz => hs z (by simp [hz]))).imp ?_ (fun _ _ h => h)
      rintro _ v' ⟨rfl, h1, h2⟩
      refine ⟨rfl, by simp [hn, h1], ?_⟩
      intro z hz
      rcases List.mem_cons.1 hz with rfl | hz
      · exact hfc
      · exact h2 z hz

theorem box_names (d : Dims) (sfx : List Byte) : (d.axes.map fun a => a.letter :: sfx) = d.label.map fun x => x :: sfx := by
  simp [Dims.label]

theorem svBox_ok {s : ASchema} {d : Dims} (h : BoxStruct d s) (v : SView) :
    svBox s v = .ok () { v with dimensions := (d.code : Int), coordType := 1 } := by
  obtain ⟨hf, hn, hg⟩ := h
  have hl : s.children.length = 2 * d.axes.length := by
    have := congrArg List.length hn
    simp at this
    omega
  rw [box_names, box_names, List.map_append] at hn
  have hk : s.children.length / 2 = d.label.length := by simp [hl, Dims.label]
  have h1 : (s.children.take d.label.length).map ASchema.name = (d.label.map fun x => x :: str "min").map some := by
    rw [List.map_take, hn]
    exact List.take_left' (by simp)
  have h2 : (s.children.drop d.label.length).map ASchema.name = (d.label.map fun x => x :: str "max").map some := by
    rw [List.map_drop, hn]
    exact List.drop_left' (by simp)
  unfold svBox
  rw [M.bind_ok (svFormatIs_run hf)]
  simp only [decide_true, Bool.not_true, Bool.false_eq_true, if_false]
  rw [if_neg (by rw [hl]; cases d <;> decide)]
  rw [hk]
  rw [M.bind_ok (svBoxMins_ok h1 (fun c hc => hg c (List.mem_of_mem_take hc)) v)]
  simp only [svDimsOf_label]
  rw [M.bind_ok (M.modify_run _ _)]
  rw [M.bind_ok (svBoxMaxs_ok h2 (fun c hc => hg c (List.mem_of_mem_drop hc)) _)]
  rfl

theorem svBox_inv {s : ASchema} (hs : HasFormats s) (v : SView) :
    (svBox s v).Post (fun _ v' => ∃ d, BoxStruct d s ∧ v' = { v with dimensions := (d.code : Int), coordType := 1 })
      (fun rc _ => rc = EINVAL) := by
  obtain ⟨f, hf⟩ := hs.self
  unfold svBox
  rw [M.bind_ok (svFormatIs_run hf)]
  by_cases h1 : f = str "+s"
  rotate_left
  · simp only [h1, decide_false, Bool.not_false, if_true]
    exact rfl
  subst h1
  simp only [decide_true, Bool.not_true, Bool.false_eq_true, if_false]
  by_cases hl : s.children.length ≠ 4 ∧ s.children.length ≠ 6 ∧ s.children.length ≠ 8
  · rw [if_pos hl]; exact rfl
  rw [if_neg hl]
  refine post_bind (svBoxMins_inv (fun c hc => hs.child (List.mem_of_mem_take hc)) v) ?_
  rintro xs v' ⟨rfl, h1, h2⟩
  cases hd : svDimsOf xs with
  | none => exact rfl
  | some k =>
    obtain ⟨d, rfl, rfl⟩ := svDimsOf_inv hd
    simp only []
    rw [M.bind_ok (M.modify_run _ _)]
    have hlen : (s.children.drop (s.children.length / 2)).length = d.label.length := by
      have := congrArg List.length h1
      simp at this
      simp
      omega
    refine post_bind (svBoxMaxs_inv hlen (fun c hc => hs.child (List.mem_of_mem_drop hc)) _) ?_
    rintro _ v' ⟨rfl, h3, h4⟩
    refine ⟨d, ⟨hf, ?_, ?_⟩, rfl⟩
    · rw [box_names, box_names, List.map_append, ← h1, ← h3, ← List.map_append, List.take_append_drop]
    · intro c hc
      rw [← List.take_append_drop (s.children.length / 2) s.children] at hc
      rcases List.mem_append.1 hc with hc | hc
      · exact h2 c hc
      · exact h4 c hc

/-! ## The whole view -/

theorem nativeType_make {g ct : Int} {d : Dims} (hg : 1 ≤ g ∧ g ≤ 6) (hc : ct = 1 ∨ ct = 2) :
    makeType g d.code ct = 1000 * ((d.code : Int) - 1) + 10000 * (ct - 1) + g := by
  have hd : 1 ≤ (d.code : Int) := by cases d <;> decide
  unfold makeType GT.geometry GT.box
  rw [if_neg (by omega), if_neg (by omega), if_neg (by omega), if_neg (by omega), Int.mul_comm 1000, Int.mul_comm 10000]

theorem boxType_make (d : Dims) : makeType 990 d.code 1 = 1000 * ((d.code : Int) - 1) + 10000 * ((1 : Int) - 1) + 990 := by
  cases d <;> decide

theorem Spec.Lists.ct {d : Dims} {ct : Int} {n : Nat} {s : ASchema} (h : Lists d ct n s) : ct = 1 ∨ ct = 2 := by
  induction n generalizing s with
  | zero => rcases h with ⟨h, _⟩ | ⟨h, _⟩ <;> simp [h]
  | succ n ih => obtain ⟨_, c, _, h⟩ := h; exact ih h

/-- What the branch for a name leaves. -/
def byNameResult (ext : List Byte) (s : ASchema) (v v' : SView) : Prop :=
  v'.extName = v.extName ∧ v'.extMetadata = v.extMetadata ∧
    ((∃ d : Dims, v'.dimensions = d.code ∧ Native ext v'.geometryType d v'.coordType s ∧
        v'.type = 1000 * (v'.dimensions - 1) + 10000 * (v'.coordType - 1) + v'.geometryType) ∨
      (s.children = [] ∧ Serialized ext v'.type s ∧ v'.geometryType = 0 ∧ v'.dimensions = 0 ∧ v'.coordType = 0))

theorem svNative_nested {ext : List Byte} {g : Int} {n : Nat} {s : ASchema} (hg : 1 ≤ g ∧ g ≤ 6) (hs : HasFormats s) (hz : SizesFit s)
    (hN : ∀ d ct, Lists d ct n s → Native ext g d ct s) (v : SView) :
    (svNative g (svNested n s) v).Post (fun _ v' => byNameResult ext s v v') (fun rc _ => rc = EINVAL) := by
  unfold svNative
  rw [M.bind_ok (M.modify_run _ _)]
  refine post_bind (svNested_inv hs hz _) ?_
  rintro _ v' ⟨d, ct, hl, rfl⟩
  exact ⟨rfl, rfl, .inl ⟨d, rfl, hN d ct hl, nativeType_make hg hl.ct⟩⟩

theorem svNative_box {s : ASchema} (hs : HasFormats s) (v : SView) :
    (svNative GT.box (svBox s) v).Post (fun _ v' => byNameResult (str "geoarrow.box") s v v') (fun rc _ => rc = EINVAL) := by
  unfold svNative
  rw [M.bind_ok (M.modify_run _ _)]
  refine post_bind (svBox_inv hs _) ?_
  rintro _ v' ⟨d, hb, rfl⟩
  exact ⟨rfl, rfl, .inl ⟨d, rfl, .box hb, boxType_make d⟩⟩

theorem naParse_plain {f : List Byte} {ty : NaType} {n : Int} (h : naParse f = some (ty, n)) :
    (ty = .string ↔ f = str "u") ∧ (ty = .largeString ↔ f = str "U") ∧ (ty = .stringView ↔ f = str "vu") ∧
    (ty = .binary ↔ f = str "z") ∧ (ty = .largeBinary ↔ f = str "Z") ∧ (ty = .binaryView ↔ f = str "vz") := by
  unfold naParse at h
  by_cases h1 : f = str "u"
  · rw [if_pos h1] at h; cases h; subst h1; decide
  rw [if_neg h1] at h
  by_cases h2 : f = str "U"
  · rw [if_pos h2] at h; cases h; subst h2; decide
  rw [if_neg h2] at h
  by_cases h3 : f = str "vu"
  · rw [if_pos h3] at h; cases h; subst h3; decide
  rw [if_neg h3] at h
  by_cases h4 : f = str "z"
  · rw [if_pos h4] at h; cases h; subst h4; decide
  rw [if_neg h4] at h
  by_cases h5 : f = str "Z"
  · rw [if_pos h5] at h; cases h; subst h5; decide
  rw [if_neg h5] at h
  by_cases h6 : f = str "vz"
  · rw [if_pos h6] at h; cases h; subst h6; decide
  rw [if_neg h6] at h
  have : ty = .double ∨ ty = .struct ∨ ty = .list ∨ ty = .fixedSizeList := by
    by_cases h7 : f = str "g"
    · rw [if_pos h7] at h; cases h; simp
    rw [if_neg h7] at h
    by_cases h8 : f = str "+s"
    · rw [if_pos h8] at h; cases h; simp
    rw [if_neg h8] at h
    by_cases h9 : f = str "+l"
    · rw [if_pos h9] at h; cases h; simp
    rw [if_neg h9] at h
    split at h
    · split at h
      · cases h; simp
      · cases h
    · cases h
  rcases this with rfl | rfl | rfl | rfl <;> simp [h1, h2, h3, h4, h5, h6]

theorem svWkt_inv {s : ASchema} {na : NaView} (hna : naInit s = some na) (v : SView) :
    (svSerialized (svWktType na.type) v).Post (fun _ v' => byNameResult (str "geoarrow.wkt") s v v') (fun rc _ => rc = EINVAL) := by
  obtain ⟨f, hf, hp, hpl, hc, -, -⟩ := naInit_inv hna
  obtain ⟨h1, h2, h3, -⟩ := naParse_plain hp
  cases ht : na.type <;> rw [ht] at h1 h2 h3 hc <;> first | exact rfl | skip
  · exact ⟨rfl, rfl, .inr ⟨by simpa [naChildrenOk] using hc, .wkt (hf.trans (congrArg some (h1.1 rfl))), rfl, rfl, rfl⟩⟩
  · exact ⟨rfl, rfl, .inr ⟨by simpa [naChildrenOk] using hc, .largeWkt (hf.trans (congrArg some (h2.1 rfl))), rfl, rfl, rfl⟩⟩
  · exact ⟨rfl, rfl, .inr ⟨by simpa [naChildrenOk] using hc, .wktView (hf.trans (congrArg some (h3.1 rfl))), rfl, rfl, rfl⟩⟩

theorem svWkb_inv {s : ASchema} {na : NaView} (hna : naInit s = some na) (x : List Byte) (v : SView) :
    (svSerialized (svWkbType na.type) v).Post (fun _ v' => byNameResult (str "geoarrow.wkb" ++ x) s v v')
      (fun rc _ => rc = EINVAL) := by
  obtain ⟨f, hf, hp, hpl, hc, -, -⟩ := naInit_inv hna
  obtain ⟨-, -, -, h1, h2, h3⟩ := naParse_plain hp
  cases ht : na.type <;> rw [ht] at h1 h2 h3 hc <;> first | exact rfl | skip
  · exact ⟨rfl, rfl, .inr ⟨by simpa [naChildrenOk] using hc, .wkb (hf.trans (congrArg some (h1.1 rfl))), rfl, rfl, rfl⟩⟩
  · exact ⟨rfl, rfl, .inr ⟨by simpa [naChildrenOk] using hc, .largeWkb (hf.trans (congrArg some (h2.1 rfl))), rfl, rfl, rfl⟩⟩
  · exact ⟨rfl, rfl, .inr ⟨by simpa [naChildrenOk] using hc, .wkbView (hf.trans (congrArg some (h3.1 rfl))), rfl, rfl, rfl⟩⟩

theorem svByName_inv {s : ASchema} {na : NaView} (hs : HasFormats s) (hz : SizesFit s) (hna : naInit s = some na) (ext : List Byte)
    (v : SView) : (svByName s na ext v).Post (fun _ v' => byNameResult ext s v v') (fun rc _ => rc = EINVAL) := by
  unfold svByName
  by_cases h1 : ext = str "geoarrow.box"
  · rw [if_pos h1, h1]; exact svNative_box hs v
  rw [if_neg h1]
  by_cases h2 : ext = str "geoarrow.point"
  · rw [if_pos h2, h2]; exact svNative_nested (by decide) hs hz (fun _ _ h => .point h) v
  rw [if_neg h2]
  by_cases h3 : ext = str "geoarrow.linestring"
  · rw [if_pos h3, h3]; exact svNative_nested (by decide) hs hz (fun _ _ h => .linestring h) v
  rw [if_neg h3]
  by_cases h4 : ext = str "geoarrow.polygon"
  · rw [if_pos h4, h4]; exact svNative_nested (by decide) hs hz (fun _ _ h => .polygon h) v
  rw [if_neg h4]
  by_cases h5 : ext = str "geoarrow.multipoint"
  · rw [if_pos h5, h5]; exact svNative_nested (by decide) hs hz (fun _ _ h => .multipoint h) v
  rw [if_neg h5]
  by_cases h6 : ext = str "geoarrow.multilinestring"
  · rw [if_pos h6, h6]; exact svNative_nested (by decide) hs hz (fun _ _ h => .multilinestring h) v
  rw [if_neg h6]
  by_cases h7 : ext = str "geoarrow.multipolygon"
  · rw [if_pos h7, h7]; exact svNative_nested (by decide) hs hz (fun _ _ h => .multipolygon h) v
  rw [if_neg h7]
  by_cases h8 : ext = str "geoarrow.wkt"
  · rw [if_pos h8, h8]; exact svWkt_inv hna v
  rw [if_neg h8]
  by_cases h9 : ext.take 12 = str "geoarrow.wkb"
  · rw [if_pos h9]
    have := svWkb_inv hna (ext.drop 12) v
    rw [← h9, List.take_append_drop] at this
    exact this
  rw [if_neg h9]
  exact rfl

theorem svNative_ok {g ct : Int} {d : Dims} {parse : M SView Unit} (hp : ∀ v, parse v = .ok () { v with dimensions := (d.code : Int), coordType := ct })
    (v : SView) : svNative g parse v = .ok () { v with geometryType := g, dimensions := (d.code : Int), coordType := ct, type := makeType g d.code ct } := by
  unfold svNative
  rw [M.bind_ok (M.modify_run _ _), M.bind_ok (hp _)]
  rfl

theorem svByName_native {s : ASchema} {na : NaView} {ext : List Byte} {g ct : Int} {d : Dims} (h : Native ext g d ct s) (v : SView) :
    svByName s na ext v =
      .ok () { v with geometryType := g, dimensions := (d.code : Int), coordType := ct, type := 1000 * ((d.code : Int) - 1) + 10000 * (ct - 1) + g } := by
  cases h with
  | point h => rw [← nativeType_make (by decide) h.ct]; exact svNative_ok (fun v => svNested_ok h v) v
  | linestring h => rw [← nativeType_make (by decide) h.ct]; exact svNative_ok (fun v => svNested_ok h v) v
  | polygon h => rw [← nativeType_make (by decide) h.ct]; exact svNative_ok (fun v => svNested_ok h v) v
  | multipoint h => rw [← nativeType_make (by decide) h.ct]; exact svNative_ok (fun v => svNested_ok h v) v
  | multilinestring h => rw [← nativeType_make (by decide) h.ct]; exact svNative_ok (fun v => svNested_ok h v) v
  | multipolygon h => rw [← nativeType_make (by decide) h.ct]; exact svNative_ok (fun v => svNested_ok h v) v
  | box h => rw [← boxType_make]; exact svNative_ok (fun v => svBox_ok h v) v

/-- nanoarrow accepts the storage of every described schema. -/
theorem naInit_of_describes {ext : List Byte} {s : ASchema} {v : SView} (h : Describes ext s v) :
    ∃ na, naInit s = some na := by
  obtain ⟨hpl, -, -, h⟩ := h
  rcases h with ⟨d, -, hN, -⟩ | ⟨hc, hS, -⟩
  · have hl : ∀ n ct, Lists d ct n s → ∃ na, naInit s = some na := by
      intro n ct hl
      cases n with
      | zero =>
        rcases hl with ⟨-, hs⟩ | ⟨-, hs⟩
        · exact ⟨_, naInit_some hs.1 (ty := .struct) (n := 0) (by decide) hpl rfl⟩
        · obtain ⟨_, text, c, hf, ht, hch, -⟩ := hs
          have hfit : -2147483648 ≤ (d.n : Int) ∧ (d.n : Int) < 2147483648 := by cases d <;> decide
          exact ⟨_, naInit_some hf (naParse_fixed ht hfit) hpl (by simp [naChildrenOk, hch])⟩
      | succ n =>
        obtain ⟨hf, c, hch, -⟩ := hl
        exact ⟨_, naInit_some hf (ty := .list) (n := 0) (by decide) hpl (by simp [naChildrenOk, hch])⟩
    generalize v.coordType = ct at hN
    generalize v.geometryType = g at hN
    cases hN with
    | point h => exact hl _ _ h
    | linestring h => exact hl _ _ h
    | polygon h => exact hl _ _ h
    | multipoint h => exact hl _ _ h
    | multilinestring h => exact hl _ _ h
    | multipolygon h => exact hl _ _ h
    | box h => exact ⟨_, naInit_some h.1 (ty := .struct) (n := 0) (by decide) hpl rfl⟩
  · generalize v.type = t at hS
    cases hS with
    | wkt h => exact ⟨_, naInit_some h (ty := .string) (n := 0) (by decide) hpl (by simp [naChildrenOk, hc])⟩
    | largeWkt h => exact ⟨_, naInit_some h (ty := .largeString) (n := 0) (by decide) hpl (by simp [naChildrenOk, hc])⟩
    | wktView h => exact ⟨_, naInit_some h (ty := .stringView) (n := 0) (by decide) hpl (by simp [naChildrenOk, hc])⟩
    | wkb h => exact ⟨_, naInit_some h (ty := .binary) (n := 0) (by decide) hpl (by simp [naChildrenOk, hc])⟩
    | largeWkb h => exact ⟨_, naInit_some h (ty := .largeBinary) (n := 0) (by decide) hpl (by simp [naChildrenOk, hc])⟩
    | wkbView h => exact ⟨_, naInit_some h (ty := .binaryView) (n := 0) (by decide) hpl (by simp [naChildrenOk, hc])⟩

theorem svByName_serialized {s : ASchema} {na : NaView} {ext : List Byte} {t : Int} (hna : naInit s = some na) (h : Serialized ext t s)
    (v : SView) : svByName s na ext v = .ok () { v with type := t, geometryType := 0, dimensions := 0, coordType := 0 } := by
  obtain ⟨f, hf, hp, -⟩ := naInit_inv hna
  obtain ⟨h1, h2, h3, h4, h5, h6⟩ := naParse_plain hp
  have wkb : ∀ x, svByName s na (str "geoarrow.wkb" ++ x) v = svSerialized (svWkbType na.type) v := by
    intro x
    have ht : (str "geoarrow.wkb" ++ x).take 12 = str "geoarrow.wkb" := List.take_left' (by decide)
    have hne : ∀ name : List Byte, name.take 12 ≠ str "geoarrow.wkb" → ¬ (str "geoarrow.wkb" ++ x = name) := by
      rintro name hn rfl
      exact hn ht
    unfold svByName
    rw [if_neg (hne _ (by decide)), if_neg (hne _ (by decide)), if_neg (hne _ (by decide)), if_neg (hne _ (by decide)),
      if_neg (hne _ (by decide)), if_neg (hne _ (by decide)), if_neg (hne _ (by decide)), if_neg (hne _ (by decide)), if_pos ht]
  have wkt : svByName s na (str "geoarrow.wkt") v = svSerialized (svWktType na.type) v := rfl
  cases h with
  | wkt h => rw [wkt, h1.2 (by rw [hf] at h; exact Option.some.inj h)]; rfl
  | largeWkt h => rw [wkt, h2.2 (by rw [hf] at h; exact Option.some.inj h)]; rfl
  | wktView h => rw [wkt, h3.2 (by rw [hf] at h; exact Option.some.inj h)]; rfl
  | wkb h => rw [wkb, h4.2 (by rw [hf] at h; exact Option.some.inj h)]; rfl
  | largeWkb h => rw [wkb, h5.2 (by rw [hf] at h; exact Option.some.inj h)]; rfl
  | wkbView h => rw [wkb, h6.2 (by rw [hf] at h; exact Option.some.inj h)]; rfl

theorem svInternal_inv {s : ASchema} {na : NaView} (hs : HasFormats s) (hz : SizesFit s) (hna : naInit s = some na) (ext : List Byte)
    (v : SView) : (svInternal s na ext v).Post (fun _ v' => Describes ext s v') (fun rc _ => rc = EINVAL) := by
  obtain ⟨f, hf, hp, hpl, hc, -, he⟩ := naInit_inv hna
  unfold svInternal
  refine post_bind (svByName_inv hs hz hna ext v) ?_
  rintro _ v' ⟨-, -, h⟩
  exact ⟨hpl, rfl, he.trans (metadataGet_first _ s), h⟩

theorem svInternal_ok {s : ASchema} {na : NaView} {ext : List Byte} {v' : SView} (hna : naInit s = some na) (h : Describes ext s v')
    (v : SView) : svInternal s na ext v = .ok () v' := by
  obtain ⟨hpl, hx, hm, h⟩ := h
  obtain ⟨f, hf, hp, -, hc, -, he⟩ := naInit_inv hna
  rw [metadataGet_first, ← hm] at he
  obtain ⟨e, m, t, g, d', ct⟩ := v'
  unfold svInternal
  rcases h with ⟨d, hd, hN, ht⟩ | ⟨hch, hS, h1, h2, h3⟩
  · simp only at hd hN ht hx he
    subst hd ht hx
    rw [M.bind_ok (svByName_native hN v)]
    rw [M.modify_run, he]
  · simp only at hS h1 h2 h3 hx he
    subst h1 h2 h3 hx
    rw [M.bind_ok (svByName_serialized hna hS v)]
    rw [M.modify_run, he]

end Verif
