import Verif.Proof.WktRefine
/-!
# Every function of the WKT reader follows its counterpart on tokens
-/
namespace Verif
open Spec

section
variable {blob : List Byte} {parse : List Byte → Option Dbl}

theorem takeWhile_get (p : Byte → Bool) (l : List Byte) (i : Nat) (h : i < (l.takeWhile p).length) : (l.takeWhile p)[i]? = l[i]? := by
  have h' := List.getElem?_append_left (l₂ := l.dropWhile p) h
  rw [List.takeWhile_append_dropWhile] at h'
  exact h'.symm

/-! ## Numbers -/

theorem ord_at (hpe : parse [] = none) {r : WktR} {ts : List Tok} (ha : At blob r ts) (ht : Tight blob r) (i : Nat) (hi : 64 * i + r.n < 256) :
    match ts with
    | .word w :: ts' => (match parse w with
      | none => wkrOrdinate parse blob i r = .err EINVAL r
      | some x => ∃ r', wkrOrdinate parse blob i r = .ok () r' ∧ At blob r' ts' ∧ Edge blob r' ∧ r'.left ≤ r.left ∧ r'.nv = r.nv ∧ r'.n = r.n ∧
          r'.coords = fun k => if k = 64 * i + r.n then x else r.coords k)
    | _ => wkrOrdinate parse blob i r = .err EINVAL r := by
  have hr : wkrOrdinate parse blob i r = (match parse ((blob.drop r.pos).takeWhile isWordChar) with
      | none => .err EINVAL r
      | some x => .ok () { r.move ((blob.drop r.pos).takeWhile isWordChar).length with coords := fun k => if k = 64 * i + r.n then x else r.coords k }) := by
    unfold wkrOrdinate
    rw [untilSep_at ha]
    have hl : (r.move ((blob.drop r.pos).takeWhile isWordChar).length).pos - r.pos = ((blob.drop r.pos).takeWhile isWordChar).length := by
      simp only [WktR.move]; omega
    simp only []
    rw [hl, ← List.prefix_iff_eq_take.mp (List.takeWhile_prefix _)]
    cases parse ((blob.drop r.pos).takeWhile isWordChar) with
    | none => rfl
    | some x => simp only [if_pos hi]
  rcases wordHere ha ht with ⟨w, ts', rfl, h1, h2, h3, h4⟩ | ⟨h1, h2⟩
  · rw [h2] at hr
    simp only []
    cases hp : parse w with
    | none => rw [hp] at hr; exact hr
    | some x =>
      rw [hp] at hr
      refine ⟨_, hr, ⟨h3.le, h3.left, h3.toks⟩, h4, ?_, rfl, rfl, rfl⟩
      exact (moved_move r w.length).left
  · rw [h2, hpe] at hr
    split
    · exact absurd rfl (h1 _ _)
    · exact hr

theorem space_at {r : WktR} {ts : List Tok} (ha : At blob r ts) (he : Edge blob r) :
    (∃ r', wkrSpace blob r = .ok () r' ∧ At blob r' ts ∧ Tight blob r' ∧ Moved r r') ∨
    (wkrSpace blob r = .err EINVAL r ∧ ∀ w ts', ts ≠ .word w :: ts') := by
  have hl := ha.lenDrop
  cases hd : blob.drop r.pos with
  | nil =>
    right
    rw [hd] at hl
    have ht := ha.toks
    rw [hd, lex_nil] at ht
    subst ht
    refine ⟨?_, by simp⟩
    unfold wkrSpace
    rw [if_neg (by simp at hl; omega)]
  | cons c cs =>
    have hr : wkrSpace blob r = if wkrIsSpace c then wkrSkip blob r else .err EINVAL r := by
      unfold wkrSpace
      rw [hd] at hl
      rw [if_pos (by simp at hl; omega), get_drop hd]
    by_cases hc : wkrIsSpace c = true
    · left
      rw [if_pos hc] at hr
      rw [hr]
      exact skip_at ha
    · right
      rw [if_neg hc] at hr
      refine ⟨hr, ?_⟩
      have ht : Tight blob r := by
        unfold Tight
        rw [hd]
        simp only [startsTight]
        rw [← isSpace_eq]
        simpa using hc
      rcases wordHere ha ht with ⟨w, ts', rfl, h1, h2, _⟩ | ⟨h1, _⟩
      · exfalso
        apply h1
        rw [← h2]
        unfold Edge at he
        rw [hd] at he ⊢
        simp only [startsEdge, Bool.not_eq_true'] at he
        rw [List.takeWhile_cons, if_neg (by simp [he])]
      · exact h1

theorem ords_at (hpe : parse [] = none) (k : Nat) : ∀ (i : Nat) (r : WktR) (ts : List Tok), At blob r ts → Edge blob r → r.n < 64 → i + k ≤ 4 →
    match tkOrds parse k ts with
    | none => ∃ r', wkrOrdinates parse blob i k r = .err EINVAL r'
    | some (c, ts') => ∃ r', wkrOrdinates parse blob i k r = .ok () r' ∧ At blob r' ts' ∧ r'.left ≤ r.left ∧ r'.nv = r.nv ∧ r'.n = r.n ∧
        c.length = k ∧ (∀ l, l < k → c[l]? = some (r'.coords (64 * (i + l) + r.n))) ∧
        ∀ j, (∀ l, l < k → j ≠ 64 * (i + l) + r.n) → r'.coords j = r.coords j := by
  induction k with
  | zero =>
    intro i r ts ha he hn hk
    exact ⟨r, rfl, ha, Int.le_refl _, rfl, rfl, rfl, by intro l hl; omega, fun _ _ => rfl⟩
  | succ k ih =>
    intro i r ts ha he hn hk
    simp only [wkrOrdinates]
    rcases space_at ha he with ⟨r1, e1, a1, t1, m1⟩ | ⟨e1, h1⟩
    · have hn1 : r1.n = r.n := m1.n
      have ho := ord_at hpe a1 t1 i (by omega)
      rw [M.bind_ok e1]
      unfold tkOrds
      cases ts with
      | nil => exact ⟨_, M.bind_err ho⟩
      | cons t ts' =>
        cases t with
        | opening b => exact ⟨_, M.bind_err ho⟩
        | closing => exact ⟨_, M.bind_err ho⟩
        | comma => exact ⟨_, M.bind_err ho⟩
        | word w =>
          simp only [] at ho ⊢
          cases hp : parse w with
          | none =>
            rw [hp] at ho
            exact ⟨_, M.bind_err ho⟩
          | some x =>
            rw [hp] at ho
            obtain ⟨r2, e2, a2, d2, l2, v2, n2, c2⟩ := ho
            simp only []
            rw [M.bind_ok e2]
            have h := ih (i + 1) r2 ts' a2 d2 (by omega) (by omega)
            cases hq : tkOrds parse k ts' with
            | none =>
              rw [hq] at h
              exact h
            | some p =>
              obtain ⟨c, ts''⟩ := p
              rw [hq] at h
              obtain ⟨r3, e3, a3, l3, v3, n3, len, hc, hrest⟩ := h
              refine ⟨r3, e3, a3, ?_, ?_, ?_, ?_, ?_, ?_⟩
              · have := m1.left; omega
              · rw [v3, v2, m1.nv]
              · rw [n3, n2, m1.n]
              · simp [len]
              · intro l hl
                cases l with
                | zero =>
                  rw [hrest _ (by intro l hl; omega), c2]
                  simp [hn1]
                | succ l =>
                  rw [List.getElem?_cons_succ, hc l (by omega), n2, hn1, show i + 1 + l = i + (l + 1) by omega]
              · intro j hj
                rw [hrest j (by intro l hl; have := hj (l + 1) (by omega); omega), c2, m1.coords]
                have := hj 0 (by omega)
                simp only [hn1]
                rw [if_neg (by omega)]
    · have : tkOrds parse (k + 1) ts = none := by
        unfold tkOrds
        split
        · exact absurd rfl (h1 _ _)
        · rfl
      rw [this]
      exact ⟨_, M.bind_err e1⟩

/-! ## Coordinates -/

/-- The reader's ordinates per coordinate. -/
def Inv {χ : Type} (nv : Nat) : χ → WktR → Prop := fun _ r => r.nv = nv

/-- The coordinate cache holds `cs`. -/
def InvC (nv : Nat) : List Coord → WktR → Prop := fun cs r => r.nv = nv ∧ r.cached = cs ∧ r.n ≤ 64

theorem inv_stable {χ : Type} (nv : Nat) : Stable (Inv nv : χ → WktR → Prop) := fun _ _ _ h h' => h.nv.trans h'

theorem cached_eq {r r' : WktR} (h1 : r'.nv = r.nv) (h2 : r'.n = r.n) (h3 : r'.coords = r.coords) : r'.cached = r.cached := by
  unfold WktR.cached; rw [h1, h2, h3]

theorem invC_stable (nv : Nat) : Stable (InvC nv) := fun _ _ _ h h' =>
  ⟨h.nv.trans h'.1, (cached_eq h.nv h.n h.coords).trans h'.2.1, h.n ▸ h'.2.2⟩

theorem cached_length (r : WktR) : r.cached.length = r.n := by simp [WktR.cached]

theorem cached_snoc {r r' : WktR} {c : Coord} {nv : Nat} (hnv : r.nv = nv) (hnv' : r'.nv = nv) (hn : r'.n = r.n + 1) (hn64 : r.n < 64)
    (len : c.length = nv) (hc : ∀ l, l < nv → c[l]? = some (r'.coords (64 * l + r.n)))
    (hrest : ∀ j, (∀ l, l < nv → j ≠ 64 * l + r.n) → r'.coords j = r.coords j) : r'.cached = r.cached ++ [c] := by
  unfold WktR.cached
  rw [hn, List.range_succ, List.map_append, hnv, hnv']
  congr 1
  · apply List.map_congr_left
    intro j hj
    apply List.map_congr_left
    intro i hi
    rw [List.mem_range] at hi hj
    exact hrest _ (by intro l hl; omega)
  · simp only [List.map_cons, List.map_nil, List.cons.injEq, and_true]
    apply List.ext_getElem?
    intro l
    by_cases hl : l < nv
    · rw [hc l hl]; simp [hl]
    · rw [List.getElem?_eq_none (l := c) (by omega), List.getElem?_eq_none (by rw [List.length_map, List.length_range]; omega)]

theorem flush_run {r : WktR} {cs : List Coord} {nv : Nat} (h : InvC nv cs r) (hnv : nv ≤ 4) :
    Runs (fun _ h => wkrFlush h) r (if cs = [] then [] else [.coords nv cs]) (.done ((), { r with n := 0 })) := by
  obtain ⟨h1, h2, h3⟩ := h
  have hl := cached_length r
  rw [h2] at hl
  by_cases hn : 0 < r.n
  · have hne : cs ≠ [] := by intro hc; subst hc; simp at hl; omega
    rw [if_neg hne]
    intro σ hd s
    show wkrFlush hd r s = _
    unfold wkrFlush
    subst h1 h2
    rw [if_pos hn, if_pos ⟨hnv, h3⟩]
    exact Behaves.bind (f := fun _ _ _ => Pure.pure ((), { r with n := 0 })) (Behaves.call (.coords r.nv r.cached)) (Behaves.pure _) σ hd s
  · have hne : cs = [] := by apply List.eq_nil_of_length_eq_zero; omega
    rw [if_pos hne]
    have hr : ({ r with n := 0 } : WktR) = r := by
      cases r; simp only [WktR.mk.injEq, true_and, and_true]; simp only [] at hn; omega
    rw [hr]
    intro σ hd s
    show wkrFlush hd r s = _
    unfold wkrFlush
    rw [if_neg hn]; rfl

theorem Ref.flush {F : Nat} {nv : Nat} (hnv : nv ≤ 4) (K : WktR → Prop) (hK : ∀ r r' : WktR, r'.pos = r.pos → K r → K r') :
    Ref blob F (fun x r => InvC nv x r ∧ K r) (fun x r => Inv nv x r ∧ K r) (fun _ h => wkrFlush h) (tkFlush nv) := by
  rintro cs r ts ⟨hi, hk⟩ ha -
  exact ⟨_, flush_run hi hnv, ⟨hi.1, hK r _ rfl hk⟩, ⟨ha.le, ha.left, ha.toks⟩, Int.le_refl _⟩

/-- A coordinate, with room in the cache. -/
theorem coord_tail (hpe : parse [] = none) {nv : Nat} (hnv1 : 1 ≤ nv) (hnv : nv ≤ 4) {r : WktR} {cs : List Coord} {ts : List Tok} (hi : InvC nv cs r)
    (hn : r.n < 64) (ha : At blob r ts) (ht : Tight blob r) :
    Meets blob r (InvC nv) (fun _ _ => (Rd.of (wkrOrdinate parse blob 0) >>= fun _ => Rd.of (fun r => Res.ok r.nv r) >>= fun nv =>
      Rd.of (wkrOrdinates parse blob 1 (nv - 1)) >>= fun _ => Rd.of (M.modify fun r => { r with n := r.n + 1 }) : Rd _ Unit))
      ([], (tkOrds parse nv ts).map fun p => (cs ++ [p.1], p.2)) := by
  obtain ⟨k, rfl⟩ : ∃ k, nv = k + 1 := ⟨nv - 1, by omega⟩
  have ho := ord_at hpe ha ht 0 (by omega)
  unfold tkOrds
  cases ts with
  | nil => exact Runs.step_err ho
  | cons t ts' =>
    cases t with
    | opening b => exact Runs.step_err ho
    | closing => exact Runs.step_err ho
    | comma => exact Runs.step_err ho
    | word w =>
      simp only [] at ho ⊢
      cases hp : parse w with
      | none => rw [hp] at ho; exact Runs.step_err ho
      | some x =>
        rw [hp] at ho
        obtain ⟨r2, e2, a2, d2, l2, v2, n2, c2⟩ := ho
        simp only []
        have hk : r2.nv - 1 = k := by rw [v2, hi.1]; rfl
        have h := ords_at hpe k 1 r2 ts' a2 d2 (by omega) (by omega)
        cases hq : tkOrds parse k ts' with
        | none =>
          rw [hq] at h
          obtain ⟨r3, e3⟩ := h
          refine Runs.step e2 (Runs.step (a := r2.nv) (r' := r2) rfl ?_)
          rw [hk]
          exact Runs.step_err e3
        | some p =>
          obtain ⟨c, ts''⟩ := p
          rw [hq] at h
          obtain ⟨r3, e3, a3, l3, v3, n3, len, hc, hrest⟩ := h
          refine ⟨{ r3 with n := r3.n + 1 }, ?_, ⟨?_, ?_, ?_⟩, ⟨a3.le, a3.left, a3.toks⟩, ?_⟩
          · refine Runs.step e2 (Runs.step (a := r2.nv) (r' := r2) rfl ?_)
            rw [hk]
            exact Runs.step e3 (Runs.of_ok rfl)
          · show r3.nv = _
            rw [v3, v2, hi.1]
          · rw [← hi.2.1]
            refine cached_snoc (nv := k + 1) hi.1 ?_ ?_ hn ?_ ?_ ?_
            · show r3.nv = _
              rw [v3, v2, hi.1]
            · show r3.n + 1 = _
              rw [n3, n2]
            · simp [len]
            · intro l hl
              cases l with
              | zero =>
                rw [hrest _ (by intro l hl; omega), c2]
                simp
              | succ l =>
                rw [List.getElem?_cons_succ, hc l (by omega), n2, show 1 + l = l + 1 by omega]
            · intro j hj
              show r3.coords j = _
              rw [hrest j (by intro l hl; have := hj (l + 1) (by omega); omega), c2]
              have := hj 0 (by omega)
              simp only []
              rw [if_neg (by omega)]
          · show r3.n + 1 ≤ 64
            omega
          · show r3.left ≤ _
            omega

theorem Ref.coord (hpe : parse [] = none) {F nv : Nat} (hnv1 : 1 ≤ nv) (hnv : nv ≤ 4) :
    Ref blob F (AndTight blob (InvC nv)) (InvC nv) (fun _ h => wkrCoordinate parse blob h) (tkCoord parse nv) := by
  rintro cs r ts ⟨hi, ht⟩ ha -
  have hl := cached_length r
  rw [hi.2.1] at hl
  unfold tkCoord
  by_cases h64 : cs.length = 64
  · simp only [if_pos h64]
    have hf := flush_run hi hnv
    rw [if_neg (by intro hc; subst hc; simp at h64)] at hf
    have htail := coord_tail hpe hnv1 hnv (r := { r with n := 0 }) (cs := []) (ts := ts) ⟨hi.1, rfl, by simp⟩ (by simp)
      ⟨ha.le, ha.left, ha.toks⟩ ht
    have hstart : ∀ t o, Runs (fun _ _ => (Rd.of (wkrOrdinate parse blob 0) >>= fun _ => Rd.of (fun r => Res.ok r.nv r) >>= fun nv =>
        Rd.of (wkrOrdinates parse blob 1 (nv - 1)) >>= fun _ => Rd.of (M.modify fun r => { r with n := r.n + 1 }) : Rd _ Unit))
        { r with n := 0 } t o → Runs (fun _ h => wkrCoordinate parse blob h) r (.coords nv cs :: t) o := by
      intro t o h
      unfold wkrCoordinate
      refine Runs.step (a := r.n) (r' := r) rfl ?_
      simp only [if_pos (show r.n = 64 by omega)]
      exact Runs.bind hf h
    cases hq : tkOrds parse nv ts with
    | none => rw [hq] at htail; exact hstart _ _ htail
    | some p =>
      rw [hq] at htail
      obtain ⟨r', a, b, c, d⟩ := htail
      exact ⟨r', hstart _ _ a, b, c, d⟩
  · simp only [if_neg h64]
    have hn := hi.2.2
    have htail := coord_tail hpe hnv1 hnv hi (by omega) ha ht
    have hstart : ∀ t o, Runs (fun _ _ => (Rd.of (wkrOrdinate parse blob 0) >>= fun _ => Rd.of (fun r => Res.ok r.nv r) >>= fun nv =>
        Rd.of (wkrOrdinates parse blob 1 (nv - 1)) >>= fun _ => Rd.of (M.modify fun r => { r with n := r.n + 1 }) : Rd _ Unit))
        r t o → Runs (fun _ h => wkrCoordinate parse blob h) r t o := by
      intro t o h
      unfold wkrCoordinate
      refine Runs.step (a := r.n) (r' := r) rfl ?_
      simp only [if_neg (show ¬ r.n = 64 by omega)]
      exact Runs.bind (Runs.ret () r) h
    cases hq : tkOrds parse nv ts with
    | none => rw [hq] at htail; exact hstart _ _ htail
    | some p =>
      rw [hq] at htail
      obtain ⟨r', a, b, c, d⟩ := htail
      exact ⟨r', hstart _ _ a, b, c, d⟩

theorem Ref.reset {F nv : Nat} (K : WktR → Prop) (hK : ∀ r r' : WktR, r'.pos = r.pos → K r → K r') :
    Ref blob F (fun (x : Unit) r => Inv nv x r ∧ K r) (fun x r => InvC nv x r ∧ K r) (fun _ _ => wkrReset) (tkPure fun _ => []) := by
  rintro x r ts ⟨hi, hk⟩ ha -
  exact ⟨{ r with n := 0 }, Runs.of_ok rfl, ⟨⟨hi, rfl, by simp⟩, hK r _ rfl hk⟩, ⟨ha.le, ha.left, ha.toks⟩, Int.le_refl _⟩

theorem tight_pos {r r' : WktR} (h : r'.pos = r.pos) (ht : Tight blob r) : Tight blob r' := by
  unfold Tight at *; rw [h]; exact ht

theorem close_pos {r r' : WktR} (h : r'.pos = r.pos) (ht : AtClose blob r) : AtClose blob r' := by
  unfold AtClose at *; rw [h]; exact ht

/-! ## The functions -/

variable (hpe : parse [] = none) {F nv : Nat} (hnv1 : 1 ≤ nv) (hnv : nv ≤ 4)
include hpe hnv1 hnv

theorem Ref.coordinates : Ref blob F (Inv nv) (Inv nv) (fun _ h => wkrCoordinates parse blob h) (tkCoordinates parse F nv) := by
  refine Ref.emptyOr (inv_stable nv) fun b => Ref.weaken (P := Inv nv) (Q := Inv nv) ?_ (fun _ _ h => h.1) (fun _ _ h => h)
  refine Ref.skip (inv_stable nv) ?_
  refine Ref.seq (Ref.reset (Tight blob) fun _ _ => tight_pos) ?_
  refine Ref.seq (Ref.items (invC_stable nv) (Ref.coord hpe hnv1 hnv)) ?_
  exact Ref.seq (Ref.flush hnv (AtClose blob) fun _ _ => close_pos) (Ref.advance (inv_stable nv))

theorem Ref.point : Ref blob F (Inv nv) (Inv nv) (fun _ h => wkrPoint parse blob h) (tkPoint parse nv) := by
  refine Ref.emptyOr (inv_stable nv) fun b => Ref.weaken (P := Inv nv) (Q := Inv nv) ?_ (fun _ _ h => h.1) (fun _ _ h => h)
  refine Ref.skip (inv_stable nv) ?_
  refine Ref.seq (Ref.reset (Tight blob) fun _ _ => tight_pos) ?_
  refine Ref.seq (Ref.coord hpe hnv1 hnv) ?_
  refine Ref.seq ((Ref.flush hnv (fun _ => True) fun _ _ _ _ => trivial).weaken (fun _ _ h => ⟨h, trivial⟩) (fun _ _ h => h.1)) ?_
  exact Ref.skip (inv_stable nv) (Ref.close (inv_stable nv))

omit hpe hnv1 hnv in
theorem Ref.member {P : Unit → WktR → Prop} {body : ∀ σ : Type, Handler σ → Rd σ Unit} {q : TkP Unit Unit} (gt dims : Nat)
    {Q : Unit → WktR → Prop} (h : Ref blob F P Q body q) : Ref blob F P Q (fun σ h => wkrMember h gt dims (body σ h)) (tkMember gt dims q) :=
  Ref.seq (Ref.call _) (Ref.seq h (Ref.call _))

theorem Ref.flatPoint : Ref blob F (AndTight blob (Inv nv)) (Inv nv) (fun _ h => (do
    wkrReset
    wkrCoordinate parse blob h
    wkrFlush h)) (tkFlatPoint parse nv) := by
  refine Ref.seq (Ref.reset (Tight blob) fun _ _ => tight_pos) ?_
  refine Ref.seq (Ref.coord hpe hnv1 hnv) ?_
  exact (Ref.flush hnv (fun _ => True) fun _ _ _ _ => trivial).weaken (fun _ _ h => ⟨h, trivial⟩) (fun _ _ h => h.1)

omit hpe hnv1 hnv in
theorem Ref.group {P : Unit → WktR → Prop} {item : ∀ σ : Type, Handler σ → Rd σ Unit} {q : TkP Unit Unit} (hs : Stable P)
    (h : Ref blob F (AndTight blob P) P item q) :
    Ref blob F (AndTight blob P) P (fun σ h => (wkrItems blob (item σ h) >>= fun _ => Rd.of (wkrAdvance 1) : Rd σ Unit)) (tkGroup F q) :=
  Ref.seq (Ref.items hs h) (Ref.advance hs)

theorem Ref.polygon : Ref blob F (Inv nv) (Inv nv) (fun _ h => wkrPolygon parse blob h) (tkPolygon parse F nv) := by
  refine Ref.emptyOr (inv_stable nv) fun b => Ref.weaken (P := Inv nv) (Q := Inv nv) ?_ (fun _ _ h => h.1) (fun _ _ h => h)
  refine Ref.skip (inv_stable nv) (Ref.group (inv_stable nv) ?_)
  refine Ref.weaken (P := Inv nv) (Q := Inv nv) ?_ (fun _ _ h => h.1) (fun _ _ h => h)
  exact Ref.seq (Ref.call _) (Ref.seq (Ref.coordinates hpe hnv1 hnv) (Ref.call _))

theorem Ref.multipoint (dims : Nat) :
    Ref blob F (Inv nv) (Inv nv) (fun _ h => wkrMultipoint parse blob h dims) (tkMultipoint parse F nv dims) := by
  refine Ref.emptyOr (inv_stable nv) fun b => ?_
  rintro x r ts ⟨hi, h0, h40, hb⟩ ha hF
  obtain ⟨r1, e1, a1, t1, m1⟩ := skip_at ha
  obtain ⟨c, e2, hc⟩ := peek_tok a1 t1
  have hi1 : Inv nv x r1 := m1.nv.trans hi
  have hv := Ref.group (blob := blob) (F := F) (inv_stable nv) ((Ref.member 1 dims (Ref.point hpe hnv1 hnv)).weaken (P' := AndTight blob (Inv nv)) (fun _ _ h => h.1) (fun _ _ h => h))
    x r1 ts ⟨hi1, t1⟩ a1 (by have := m1.left; omega)
  have hf := Ref.group (blob := blob) (F := F) (inv_stable nv) (Ref.member 1 dims (Ref.flatPoint hpe hnv1 hnv))
  refine Meets.step e1 m1.left (Meets.step e2 (Int.le_refl _) ?_)
  have hcv : tkVerbose ts = true ↔ ¬ (c ≠ 40 ∧ c ≠ 69) := by
    cases ts with
    | nil => simp only [] at hc; subst hc; decide
    | cons t ts' =>
      cases t with
      | opening b => simp only [] at hc; rw [hc.1]; simp [tkVerbose]
      | closing => simp only [] at hc; rw [hc.1]; simp [tkVerbose]
      | comma => simp only [] at hc; rw [hc]; simp [tkVerbose]
      | word w =>
        simp only [] at hc
        cases w with
        | nil => simp at hc
        | cons d w =>
          simp only [List.head?_cons, Option.some.injEq] at hc
          obtain ⟨rfl, hw⟩ := hc
          have := (word_not_punct hw).2.1
          simp only [tkVerbose, decide_eq_true_eq]
          constructor
          · intro h h'; exact h'.2 h
          · intro h; exact Classical.byContradiction fun h' => h ⟨this, h'⟩
  simp only []
  by_cases hver : tkVerbose ts = true
  · rw [if_pos hver]
    simp only [if_neg (hcv.mp hver)]
    exact hv
  · rw [if_neg hver]
    have hcc : c ≠ 40 ∧ c ≠ 69 := Classical.byContradiction fun h => hver (hcv.mpr h)
    simp only [if_pos hcc]
    -- going back one character
    have hp1 : r1.pos ≠ 0 := by
      have := a1.left; have := ha.left; have := m1.left; omega
    generalize hr2 : ({ r1 with pos := r1.pos - 1, left := r1.left + 1 } : WktR) = r2
    have hback : (fun r : WktR => if r.pos = 0 then (Res.ub : Res WktR Unit) else .ok () { r with pos := r.pos - 1, left := r.left + 1 }) r1 = .ok () r2 := by
      simp only [if_neg hp1, hr2]
    by_cases hbt : b = true
    · rw [if_pos hbt]
      have ht := hb.mp hbt
      -- no whitespace was skipped
      have hr1 : r1 = r := by
        have hs : wkrSkip blob r = .ok () (r.move ((blob.drop r.pos).takeWhile isSpace).length) := by
          have hl := ha.lenDrop
          exact skipLoop_run (blob.drop r.pos) _ r rfl hl (by omega)
        have hz : (blob.drop r.pos).takeWhile isSpace = [] := by
          unfold Tight at ht
          cases hd : blob.drop r.pos with
          | nil => rfl
          | cons c cs =>
            rw [hd] at ht
            simp only [startsTight, Bool.not_eq_true'] at ht
            rw [List.takeWhile_cons, if_neg (by simp [ht])]
        rw [hs, hz] at e1
        cases e1
        cases r; simp [WktR.move]
      subst hr1
      have hchar : wkrChar blob 40 r2 = .ok () r1 := by
        unfold wkrChar
        subst hr2
        have := a1.lenDrop
        simp only []
        rw [if_pos (by omega), h40]
        simp only [if_true, wkrAdvance, M.modify]
        cases r1
        simp only [Res.ok.injEq, WktR.mk.injEq, true_and, and_true]
        simp only [] at h0
        constructor
        · omega
        · omega
      have hgo := hf x r1 ts ⟨hi1, t1⟩ a1 hF
      have key : ∀ t o, Runs (fun σ h => (wkrItems blob (wkrMember h 1 dims (do
          wkrReset
          wkrCoordinate parse blob h
          wkrFlush h)) >>= fun _ => Rd.of (wkrAdvance 1) : Rd σ Unit)) r1 t o →
          Runs (fun σ h => (Rd.of (fun r => if r.pos = 0 then Res.ub else .ok () { r with pos := r.pos - 1, left := r.left + 1 }) >>= fun _ =>
            wkrMultipointFlat parse blob h dims : Rd σ Unit)) r1 t o :=
        fun t o h => Runs.step hback (Runs.step hchar h)
      generalize tkGroup F (tkMember 1 dims (tkFlatPoint parse nv)) x ts = res at hgo
      obtain ⟨t, o⟩ := res
      cases o with
      | none => exact key _ _ hgo
      | some p =>
        obtain ⟨r', a, b, c, d⟩ := hgo
        exact ⟨r', key _ _ a, b, c, d⟩
    · rw [if_neg hbt]
      have hnt : ¬ Tight blob r := fun h => hbt (hb.mpr h)
      have hchar : wkrChar blob 40 r2 = .err EINVAL r2 := by
        have hs : wkrSkip blob r = .ok () (r.move ((blob.drop r.pos).takeWhile isSpace).length) := by
          have hl := ha.lenDrop
          exact skipLoop_run (blob.drop r.pos) _ r rfl hl (by omega)
        rw [hs] at e1
        cases e1
        unfold Tight at hnt
        have hne : (blob.drop r.pos).takeWhile isSpace ≠ [] := by
          intro hz
          apply hnt
          cases hd : blob.drop r.pos with
          | nil => rfl
          | cons c cs =>
            rw [hd, List.takeWhile_cons] at hz
            simp only [startsTight]
            by_cases hc : isSpace c = true
            · rw [if_pos hc] at hz; simp at hz
            · simpa using hc
        -- the character before is whitespace
        have hsp : ∃ d, blob[r2.pos]? = some d ∧ isSpace d = true := by
          subst hr2
          simp only [WktR.move]
          have hk := List.length_pos_iff.mpr hne
          have hlast : ((blob.drop r.pos).takeWhile isSpace)[((blob.drop r.pos).takeWhile isSpace).length - 1]? =
              (blob.drop r.pos)[((blob.drop r.pos).takeWhile isSpace).length - 1]? :=
            takeWhile_get _ _ _ (by omega)
          rw [List.getElem?_drop] at hlast
          rw [show r.pos + ((blob.drop r.pos).takeWhile isSpace).length - 1 = r.pos + (((blob.drop r.pos).takeWhile isSpace).length - 1) by omega, ← hlast,
            List.getElem?_eq_getElem (by omega)]
          exact ⟨_, rfl, List.all_eq_true.mp List.all_takeWhile _ (List.getElem_mem _)⟩
        obtain ⟨d, hd, hds⟩ := hsp
        unfold wkrChar
        rw [hd]
        have : d ≠ 40 := by rintro rfl; exact absurd hds (by decide)
        simp only [if_neg this]
        split <;> rfl
      exact Runs.step hback (Runs.step_err hchar)

theorem Ref.multilinestring (dims : Nat) :
    Ref blob F (Inv nv) (Inv nv) (fun _ h => wkrMultilinestring parse blob h dims) (tkMultilinestring parse F nv dims) := by
  refine Ref.emptyOr (inv_stable nv) fun b => Ref.weaken (P := Inv nv) (Q := Inv nv) ?_ (fun _ _ h => h.1) (fun _ _ h => h)
  refine Ref.skip (inv_stable nv) (Ref.group (inv_stable nv) ?_)
  exact (Ref.member 2 dims (Ref.coordinates hpe hnv1 hnv)).weaken (fun _ _ h => h.1) (fun _ _ h => h)

theorem Ref.multipolygon (dims : Nat) :
    Ref blob F (Inv nv) (Inv nv) (fun _ h => wkrMultipolygon parse blob h dims) (tkMultipolygon parse F nv dims) := by
  refine Ref.emptyOr (inv_stable nv) fun b => Ref.weaken (P := Inv nv) (Q := Inv nv) ?_ (fun _ _ h => h.1) (fun _ _ h => h)
  refine Ref.skip (inv_stable nv) (Ref.group (inv_stable nv) ?_)
  exact (Ref.member 3 dims (Ref.polygon hpe hnv1 hnv)).weaken (fun _ _ h => h.1) (fun _ _ h => h)

omit hpe hnv1 hnv in
theorem wkrType_bound {w : List Byte} {gt : Nat} (h : wkrType w = some gt) : 1 ≤ gt ∧ gt ≤ 7 := by
  unfold wkrType at h
  repeat' split at h
  all_goals first | (cases h; exact ⟨by decide, by decide⟩) | cases h

omit hpe hnv1 hnv nv in
theorem dimsToks_bound (ts : List Tok) : 1 ≤ (dimsToks ts).2.1 ∧ (dimsToks ts).2.1 ≤ 4 := by
  unfold dimsToks
  split
  · split
    · unfold wkrDims
      repeat' split
      all_goals (refine ⟨?_, ?_⟩ <;> simp)
    · (refine ⟨?_, ?_⟩ <;> simp)
  · (refine ⟨?_, ?_⟩ <;> simp)

/-- Less than `f` bytes are left. -/
def Small (f : Nat) : Unit → WktR → Prop := fun _ r => r.left < f

omit hpe hnv1 hnv in
theorem small_stable (f : Nat) : Stable (Small f) := fun _ _ _ h h' => by
  have := h.left
  simp only [Small] at h' ⊢
  omega

omit hpe hnv1 hnv in
theorem Ref.left {χ χ' : Type} {P : χ → WktR → Prop} {Q : χ' → WktR → Prop} {m : ∀ σ : Type, Handler σ → Rd σ Unit} {q : TkP χ χ'}
    (h : Ref blob F P Q m q) (f : Nat) : Ref blob F (fun x r => P x r ∧ r.left < f) (fun x r => Q x r ∧ r.left < f) m q := by
  rintro x r ts ⟨hp, hf⟩ ha hF
  have := h x r ts hp ha hF
  generalize q x ts = res at this
  obtain ⟨t, o⟩ := res
  cases o with
  | none => exact this
  | some p =>
    obtain ⟨r', a, b, c, d⟩ := this
    exact ⟨r', a, ⟨b, by omega⟩, c, d⟩

omit hnv1 hnv nv in
theorem Ref.tagged (f1 : Nat) : ∀ f2 : Nat,
    Ref blob F (fun x r => Small f1 x r ∧ Small f2 x r) (fun x r => Small f1 x r ∧ Small f2 x r) (fun _ h => wkrTagged parse blob h f1) (tkTagged parse F f2) := by
  induction f1 with
  | zero => rintro f2 x r ts ⟨h1, _⟩ ha _; have := ha.lenDrop; simp only [Small] at h1; omega
  | succ f1 ih =>
    rintro f2 x r ts ⟨h1, h2⟩ ha hF
    have hl := ha.lenDrop
    simp only [Small] at h1 h2
    obtain ⟨f2, rfl⟩ : ∃ k, f2 = k + 1 := ⟨f2 - 1, by omega⟩
    have htag := tag_at ha
    unfold tkTagged tkTag
    cases ts with
    | nil => obtain ⟨r', e⟩ := htag; exact Runs.step_err e
    | cons t ts' =>
      cases t with
      | opening b => obtain ⟨r', e⟩ := htag; exact Runs.step_err e
      | closing => obtain ⟨r', e⟩ := htag; exact Runs.step_err e
      | comma => obtain ⟨r', e⟩ := htag; exact Runs.step_err e
      | word w =>
        simp only [] at htag ⊢
        cases hg : wkrType w with
        | none => rw [hg] at htag; obtain ⟨r', e⟩ := htag; exact Runs.step_err e
        | some gt =>
          rw [hg] at htag
          obtain ⟨r1, e1, a1, v1, l1⟩ := htag
          simp only []
          have hb := dimsToks_bound ts'
          generalize dimsToks ts' = dd at *
          obtain ⟨d, nv, ts''⟩ := dd
          simp only [] at *
          have hgt := wkrType_bound hg
          have hcol : Ref blob F (fun x r => Small f1 x r ∧ Small f2 x r) (fun x r => Small f1 x r ∧ Small f2 x r)
              (fun _ h => wkrCollection blob (wkrTagged parse blob h f1)) (tkCollection F (tkTagged parse F f2)) := by
            have hst : Stable (fun x r => Small f1 x r ∧ Small f2 x r) := fun x r r' hm hh =>
              ⟨small_stable f1 x r r' hm hh.1, small_stable f2 x r r' hm hh.2⟩
            refine Ref.emptyOr hst fun b => Ref.weaken (P := fun x r => Small f1 x r ∧ Small f2 x r) (Q := fun x r => Small f1 x r ∧ Small f2 x r) ?_ (fun _ _ h => h.1) (fun _ _ h => h)
            exact Ref.skip hst (Ref.group hst ((ih f2).weaken (fun _ _ h => h.1) (fun _ _ h => h)))
          have hcontent : Ref blob F (fun x r => r = r1) (fun _ _ => True)
              (fun _ h => wkrContent parse blob h (wkrTagged parse blob h f1) gt d) (tkContent parse F (tkTagged parse F f2) gt nv d) := by
            have hP : ∀ (x : Unit) (r : WktR), r = r1 → Inv nv x r := fun x r hr => by subst hr; exact v1
            have hT : ∀ (x : Unit) (r : WktR), Inv nv x r → True := fun _ _ _ => trivial
            unfold wkrContent tkContent
            by_cases q1 : gt = 1
            · simp only [if_pos q1]; exact (Ref.point hpe hb.1 hb.2).weaken hP hT
            simp only [if_neg q1]
            by_cases q2 : gt = 2
            · simp only [if_pos q2]; exact (Ref.coordinates hpe hb.1 hb.2).weaken hP hT
            simp only [if_neg q2]
            by_cases q3 : gt = 3
            · simp only [if_pos q3]; exact (Ref.polygon hpe hb.1 hb.2).weaken hP hT
            simp only [if_neg q3]
            by_cases q4 : gt = 4
            · simp only [if_pos q4]; exact (Ref.multipoint hpe hb.1 hb.2 d).weaken hP hT
            simp only [if_neg q4]
            by_cases q5 : gt = 5
            · simp only [if_pos q5]; exact (Ref.multilinestring hpe hb.1 hb.2 d).weaken hP hT
            simp only [if_neg q5]
            by_cases q6 : gt = 6
            · simp only [if_pos q6]; exact (Ref.multipolygon hpe hb.1 hb.2 d).weaken hP hT
            simp only [if_neg q6, if_pos (show gt = 7 by omega)]
            refine hcol.weaken (fun x r hr => ?_) (fun _ _ _ => trivial)
            subst hr
            simp only [Small]
            omega
          have hm := Ref.member gt d hcontent x r1 ts'' rfl a1 (by omega)
          have := Meets.step e1 (by omega) hm (f := fun _ h t => wkrMember h t.1 t.2 (wkrContent parse blob h (wkrTagged parse blob h f1) t.1 t.2))
          have hgoal : Meets blob r (fun _ _ => True) (fun _ h => wkrTagged parse blob h (f1 + 1))
            (tkMember gt d (tkContent parse F (tkTagged parse F f2) gt nv d) x ts'') := this
          generalize tkMember gt d (tkContent parse F (tkTagged parse F f2) gt nv d) x ts'' = res at hgoal
          obtain ⟨t, o⟩ := res
          cases o with
          | none => exact hgoal
          | some p =>
            obtain ⟨r', a, b, c, d⟩ := hgoal
            refine ⟨r', a, ?_, c, d⟩
            simp only [Small]
            omega

omit hnv1 hnv nv in
theorem Ref.feature (f1 f2 : Nat) :
    Ref blob F (fun x r => Small f1 x r ∧ Small f2 x r) (fun _ _ => True) (fun _ h => wkrFeature parse blob h f1) (tkFeature parse F f2) := by
  refine Ref.seq (Ref.call _) (Ref.seq (Ref.tagged hpe f1 f2) (Ref.seq (Ref.call _) ?_))
  refine Ref.weaken (P := fun _ _ => True) (Q := fun _ _ => True) ?_ (fun _ _ _ => trivial) (fun _ _ h => h)
  refine Ref.skip (fun _ _ _ _ h => h) ?_
  rintro x r ts ⟨-, ht⟩ ha -
  obtain ⟨c, e, hc⟩ := peek_tok ha ht
  unfold tkEnd
  have hbad : c ≠ 0 → Meets blob r (fun (_ : Unit) _ => True) (fun _ _ => (do
      let c ← Rd.of (wkrPeek blob)
      if c ≠ 0 then Rd.of (M.fail EINVAL) else pure () : Rd _ Unit)) ([], none) := by
    intro h0
    refine Runs.step e ?_
    simp only [if_pos h0]
    exact Runs.of_err (r' := r) rfl
  cases ts with
  | nil =>
    rw [if_pos rfl]
    refine ⟨r, Runs.step e ?_, trivial, ha, Int.le_refl _⟩
    simp only [] at hc
    subst hc
    exact Runs.ret _ _
  | cons t ts' =>
    rw [if_neg (by simp)]
    apply hbad
    cases t with
    | opening b => rw [hc.1]; decide
    | closing => rw [hc.1]; decide
    | comma => simp only [] at hc; rw [hc]; decide
    | word w => exact (word_not_punct hc.2).1

omit hnv1 hnv nv in
/-- The whole reader. -/
theorem wktVisit_behaves (hF : blob.length < F) (f : Nat) (hf : blob.length < f) (r : WktR) :
    (tkFeature parse F f () (lex blob)).2.isSome = true ∧
        Behaves (fun _ h => wktVisit parse blob h r) (tkFeature parse F f () (lex blob)).1 (.done ()) ∨
    (tkFeature parse F f () (lex blob)).2 = none ∧
        Behaves (fun _ h => wktVisit parse blob h r) (tkFeature parse F f () (lex blob)).1 (.fail EINVAL) := by
  have h := Ref.feature hpe (blob := blob) (F := F) (blob.length + 1) f () { r with pos := 0, left := blob.length } (lex blob)
    ⟨by simp only [Small]; omega, by simp only [Small]; omega⟩ ⟨by simp, by simp, by simp⟩ (by simp only []; omega)
  generalize tkFeature parse F f () (lex blob) = res at h
  obtain ⟨t, o⟩ := res
  cases o with
  | none => exact Or.inr ⟨rfl, Behaves.bind_fail (f := fun _ _ _ => Pure.pure ()) h⟩
  | some p =>
    obtain ⟨r', a, _⟩ := h
    refine Or.inl ⟨rfl, ?_⟩
    have := Behaves.bind (f := fun _ _ _ => Pure.pure ()) a (Behaves.pure ())
    rw [List.append_nil] at this
    exact this
end
end Verif
