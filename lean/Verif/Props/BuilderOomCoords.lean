import Verif.Proof.BuilderOomCoordsAppend
import Verif.Props.BuilderOom
/-!
# C76: coordinates, when memory may run out
-/
namespace Verif
open Spec Oom

theorem oom_rest {junk : Nat → Nat → Byte} {ty : TypeId} {b0 : Builder} (h0 : builderInitFromType ty = .ok b0) {h : List Call} {rcs : List Code} {s : Sys}
    (ht : ∀ c ∈ h, Tidy (Sys.start b0) c) (hal : AllowedAll junk h (Sys.start b0)) (hr : runs junk h (Sys.start b0) = some (rcs, s)) (hf : CoordsFine h rcs) :
    Oom.Rest s (coordLedger (Sys.start b0) h rcs) ∧ Oom.Rel (settle s) (coordLedger (Sys.start b0) h rcs) ∧
      s.n = (Sys.start b0).n ∧ s.kind = (Sys.start b0).kind ∧ s.nValues = (Sys.start b0).nValues :=
  Oom.runs_all h _ _ rcs s (rest_start h0) (rel_settled_start b0) rfl rfl rfl ht hal hr hf

/-- **C76** (part) Whatever memory was refused to other buffers and to `finish`, no call that a client may make uses memory that is not there, calls on
coordinates included. Missing: the same after a call on coordinates that failed, which is false (`C76_coords_use_after_free`). -/
theorem C76_coords_safe_partial (junk : Nat → Nat → Byte) (ty : TypeId) (b0 : Builder) (h0 : builderInitFromType ty = .ok b0) (h : List Call) (rcs : List Code)
    (s : Sys) (ht : ∀ c ∈ h, Tidy (Sys.start b0) c) (hal : AllowedAll junk h (Sys.start b0)) (hr : runs junk h (Sys.start b0) = some (rcs, s))
    (hf : CoordsFine h rcs) (c : Call) (hc : Tidy s c) (ha : Allowed s c) : ∃ rc s', c.run junk s = some (rc, s') := by
  obtain ⟨r, v, _⟩ := oom_rest h0 ht hal hr hf
  obtain ⟨rc, s', h1, _⟩ := step_all (junk := junk) r v hc ha
  exact ⟨rc, s', h1⟩

/-- **C76** (part) Such a call fails only for want of memory, if the array is not valid, or if coordinates are added to a builder that has none. Missing: as
above. -/
theorem C76_coords_codes_partial (junk : Nat → Nat → Byte) (ty : TypeId) (b0 : Builder) (h0 : builderInitFromType ty = .ok b0) (h : List Call)
    (rcs : List Code) (s : Sys) (ht : ∀ c ∈ h, Tidy (Sys.start b0) c) (hal : AllowedAll junk h (Sys.start b0))
    (hr : runs junk h (Sys.start b0) = some (rcs, s)) (hf : CoordsFine h rcs) (c : Call) (hc : Tidy s c) (ha : Allowed s c) (rc : Code) (s' : Sys)
    (hs : c.run junk s = some (rc, s')) :
    rc = 0 ∨ (rc = EINVAL ∧ ∃ mem, c = .finish mem false) ∨ (rc = ENOMEM ∧ StarvedAny c) ∨ (rc = -1 ∧ ¬ IsRaw c ∧ s.kind = none) := by
  obtain ⟨r, v, _⟩ := oom_rest h0 ht hal hr hf
  obtain ⟨rc', s'', h1, h2, _⟩ := step_all (junk := junk) r v hc ha
  rw [hs] at h1
  simp only [Option.some.injEq, Prod.mk.injEq] at h1
  rw [h1.1]; exact h2

theorem unhurt_notes {s0 : Sys} : ∀ (ps : List (Call × Code)) (l : Ledger), (∀ p ∈ ps, Tidy s0 p.1) → (∀ i, firstCoord s0 ≤ i → l.hurt i = false) →
    (∀ d ∈ l.done, ∀ i, firstCoord s0 ≤ i → (d i).2 = false) → ∀ d ∈ (l.noteAlls s0 ps).done, ∀ i, firstCoord s0 ≤ i → (d i).2 = false
  | [], l, _, _, h2 => h2
  | (c, rc) :: ps, l, ht, h1, h2 => by
    simp only [Ledger.noteAlls]
    have hc : Tidy s0 c := ht (c, rc) (by simp)
    have same : (∀ i, firstCoord s0 ≤ i → (l.noteAll s0 c rc).hurt i = false) ∧ ∀ d ∈ (l.noteAll s0 c rc).done, ∀ i, firstCoord s0 ≤ i → (d i).2 = false := by
      cases c with
      | coords mem cs => simp only [Ledger.noteAll]; split <;> exact ⟨h1, h2⟩
      | coordsReserve mem n => exact ⟨h1, h2⟩
      | append mem j bs =>
        have hj : j < firstCoord s0 := hc
        simp only [Ledger.noteAll, Ledger.note]
        split
        · exact ⟨h1, h2⟩
        · exact ⟨fun i hi => by simp only; rw [if_neg (by omega)]; exact h1 i hi, h2⟩
      | reserve mem j n =>
        have hj : j < firstCoord s0 := hc
        simp only [Ledger.noteAll, Ledger.note]
        split
        · exact ⟨h1, h2⟩
        · exact ⟨fun i hi => by simp only; rw [if_neg (by omega)]; exact h1 i hi, h2⟩
      | finish mem valid =>
        simp only [Ledger.noteAll, Ledger.note]
        split
        · refine ⟨fun _ _ => rfl, fun d hd i hi => ?_⟩
          rcases List.mem_append.mp hd with hd | hd
          · exact h2 d hd i hi
          · simp only [List.mem_singleton] at hd
            subst hd; exact h1 i hi
        · exact ⟨h1, h2⟩
      | release k => exact ⟨h1, h2⟩
      | reset => exact ⟨fun _ _ => rfl, h2⟩
    exact unhurt_notes ps _ (fun p hp => ht p (by simp [hp])) same.1 same.2

/-- **C76** (part) In every finished array that was not released, the buffers of coordinates show exactly the ordinates of the coordinates accepted when that
array was built, in order, and so do the other buffers for which no call failed, whatever memory was refused elsewhere, before or later. Missing: the same
with a call on coordinates that failed. -/
theorem C76_coords_finished_partial (junk : Nat → Nat → Byte) (ty : TypeId) (b0 : Builder) (h0 : builderInitFromType ty = .ok b0) (h : List Call)
    (rcs : List Code) (s : Sys) (ht : ∀ c ∈ h, Tidy (Sys.start b0) c) (hal : AllowedAll junk h (Sys.start b0))
    (hr : runs junk h (Sys.start b0) = some (rcs, s)) (hf : CoordsFine h rcs) (k : Nat) (f : Nat → NBuf) (hk : s.arrays[k]? = some (some f)) :
    ∃ d, (coordLedger (Sys.start b0) h rcs).done[k]? = some d ∧ ∀ i, i < s.n → (f i).size = (d i).1.length ∧
      ((d i).2 = false ∨ firstCoord (Sys.start b0) ≤ i → arrayShows s k i = some (d i).1) := by
  obtain ⟨_, v, _⟩ := oom_rest h0 ht hal hr hf
  obtain ⟨d, h1, h2⟩ := v.arr k f hk
  refine ⟨d, h1, fun i hi => ⟨(h2 i hi).1, fun hd => ?_⟩⟩
  have hd : (d i).2 = false := by
    rcases hd with hd | hd
    · exact hd
    · exact unhurt_notes (s0 := Sys.start b0) (h.zip rcs) Ledger.empty (fun p hp => ht p.1 (List.of_mem_zip hp).1) (fun _ _ => rfl)
        (fun d hd => by simp [Ledger.empty] at hd) d (List.mem_of_getElem? h1) i hd
  obtain ⟨h3, h4⟩ := (h2 i hi).2 hd
  unfold arrayShows
  rw [hk]
  show readable s (f i).data (f i).size = _
  have hb := arr_block v.inv hi hk
  rw [readable_of (by show (f i).size ≤ (block (settle s).heap (f i).data).length; rw [hb]; exact h3)]
  exact congrArg some h4

/-! ## The hypotheses are met -/

/-- Coordinates are added and finished; a bitmap finds no memory; `finish` fails once; more coordinates. -/
def exOomMixed : List Call :=
  [.coords (fun _ => true) [[0x3ff0000000000000#64, 0x4000000000000000#64]], .append false 0 [1#8], .finish (fun _ => true) false,
    .coords (fun _ => true) [[0#64, 0x3ff0000000000000#64], [0x4000000000000000#64, 0#64]], .finish (fun _ => true) true,
    .finish (fun i => decide (i = 1)) true, .coordsReserve (fun _ => true) 3, .coords (fun _ => true) [[1#64, 2#64]], .finish (fun _ => true) true]

-- the codes returned: a call on a bitmap and two finishes fail, calls on coordinates do not
example : (exOomSee exOomMixed).map (·.1) = some [0, 12, 22, 0, 0, 12, 0, 0, 0] := by decide +kernel
example : CoordsFine exOomMixed [0, 12, 22, 0, 0, 12, 0, 0, 0] := by
  simp [exOomMixed, CoordsFine, IsRaw]
example : ∀ c ∈ exOomMixed, Tidy exOomStart c := by
  intro c hc
  simp only [exOomMixed, List.mem_cons, List.not_mem_nil, or_false] at hc
  rcases hc with rfl | rfl | rfl | rfl | rfl | rfl | rfl | rfl | rfl <;> simp [Tidy, firstCoord, exOomStart]
/-- `AllowedAll` can be computed. -/
def oomAllowedB (s : Sys) : Call → Bool
  | .append _ i _ => s.alive && decide (i < s.n)
  | .reserve _ i _ => s.alive && decide (i < s.n)
  | .release k => match s.arrays[k]? with | some (some _) => true | _ => false
  | .reset => true
  | _ => s.alive

def oomAllowedAllB (junk : Nat → Nat → Byte) : List Call → Sys → Bool
  | [], _ => true
  | c :: h, s => oomAllowedB s c && match c.run junk s with | none => true | some (_, s') => oomAllowedAllB junk h s'

theorem oomAllowed_of {junk : Nat → Nat → Byte} : ∀ (h : List Call) (s : Sys), oomAllowedAllB junk h s = true → AllowedAll junk h s
  | [], _, _ => trivial
  | c :: h, s, hb => by
    simp only [oomAllowedAllB, Bool.and_eq_true] at hb
    refine ⟨?_, fun rc s' e => ?_⟩
    · have hc := hb.1
      cases c with
      | release k =>
        simp only [oomAllowedB] at hc
        split at hc
        · rename_i a ha; exact ⟨a, ha⟩
        · cases hc
      | reset => trivial
      | append mem i bs => simpa [oomAllowedB, Allowed] using hc
      | reserve mem i n => simpa [oomAllowedB, Allowed] using hc
      | _ => exact hc
    · have h2 := hb.2
      rw [e] at h2
      exact oomAllowed_of h s' h2

example : AllowedAll (fun a p => BitVec.ofNat 8 (100 + a + p)) exOomMixed exOomStart := oomAllowed_of _ _ (by decide +kernel)
-- the ledger is what both arrays show
example : (coordLedger exOomStart exOomMixed [0, 12, 22, 0, 0, 12, 0, 0, 0]).done.map (fun d => (List.range 3).map fun i => (d i).1) =
    [[[], Dbl.bytes 0x3ff0000000000000#64 ++ Dbl.bytes 0#64 ++ Dbl.bytes 0x4000000000000000#64,
       Dbl.bytes 0x4000000000000000#64 ++ Dbl.bytes 0x3ff0000000000000#64 ++ Dbl.bytes 0#64], [[], Dbl.bytes 1#64, Dbl.bytes 2#64]] := by decide +kernel
example : (exOomSee exOomMixed).map (·.2.2.1) = some
    [[some [], some (Dbl.bytes 0x3ff0000000000000#64 ++ Dbl.bytes 0#64 ++ Dbl.bytes 0x4000000000000000#64),
       some (Dbl.bytes 0x4000000000000000#64 ++ Dbl.bytes 0x3ff0000000000000#64 ++ Dbl.bytes 0#64)], [some [], some (Dbl.bytes 1#64), some (Dbl.bytes 2#64)]] := by decide +kernel
-- a builder of points with interleaved coordinates
example : (match builderInitFromType 10001 with
    | .ok b =>
      (runs (fun a p => BitVec.ofNat 8 (100 + a + p)) [.coords (fun _ => true) [[1#64, 2#64], [3#64, 4#64]], .coords (fun _ => true) [[5#64, 6#64]],
        .finish (fun _ => true) true] (Sys.start b)).map fun x => (x.1, arrayShows x.2 0 1)
    | .error _ => none) = some ([0, 0, 0], some ([1#64, 2#64, 3#64, 4#64, 5#64, 6#64].flatMap Dbl.bytes)) := by decide +kernel

end Verif
