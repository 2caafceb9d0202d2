import Verif.Spec.Batch
import Verif.Props.ArrayReader
import Verif.Proof.CppWkbArray
/-! # Visiting arrays of any supported type -/
namespace Verif
open Spec

theorem coordAt_wf {d : Dims} {k : CoordKind} {a : AArray} {cs : List Coord} {lo : Nat}
    (h : ∀ (t : Nat) c, cs[t]? = some c → CoordAt d k a (lo + t) c) : ∀ c ∈ cs, c.length = d.n := by
  intro c hc
  obtain ⟨t, ht⟩ := List.getElem?_of_mem hc
  exact (h t c ht).1

theorem wfL_of : ∀ gs : List Geom, (∀ g ∈ gs, g.WF) → Geom.WFL gs
  | [], _ => trivial
  | g :: gs, h => ⟨h g (by simp), wfL_of gs fun x hx => h x (by simp [hx])⟩

theorem partsAt_coords_wf {d : Dims} {k : CoordKind} {a : AArray} {i : Nat} {cs : List Coord} (h : PartsAt (CoordAt d k) a i cs) :
    ∀ c ∈ cs, c.length = d.n := by
  obtain ⟨lo, hi, ch, _, _, h⟩ := h
  exact coordAt_wf h

theorem partsAt_mem {α : Type} {P : AArray → Nat → α → Prop} {Q : α → Prop} (hq : ∀ a i x, P a i x → Q x) {a : AArray} {i : Nat}
    {xs : List α} (h : PartsAt P a i xs) : ∀ x ∈ xs, Q x := by
  obtain ⟨lo, hi, ch, _, _, h⟩ := h
  intro x hx
  obtain ⟨t, ht⟩ := List.getElem?_of_mem hx
  exact hq _ _ _ (h t x ht)

theorem geomAt_wf {d : Dims} {k : CoordKind} {a : AArray} {i : Nat} {g : Int} {x : Geom} (h : GeomAt d k a i g x) : x.WF := by
  have hc : ∀ a i c, CoordAt d k a i c → c.length = d.n := fun _ _ _ h => h.1
  have hcs : ∀ a i cs, PartsAt (CoordAt d k) a i cs → ∀ c ∈ cs, c.length = d.n := fun _ _ _ h => partsAt_coords_wf h
  have hrs : ∀ a i rs, PartsAt (PartsAt (CoordAt d k)) a i rs → ∀ r ∈ rs, ∀ c ∈ r, c.length = d.n := fun _ _ _ h =>
    partsAt_mem (Q := fun r => ∀ c ∈ r, c.length = d.n) hcs h
  cases h with
  | point h => intro c hc; simp only [List.mem_singleton] at hc; subst hc; exact h.1
  | linestring h => exact hcs _ _ _ h
  | polygon h => exact hrs _ _ _ h
  | multipoint h =>
    refine wfL_of _ fun x hx => ?_
    obtain ⟨c, hc, rfl⟩ := List.mem_map.mp hx
    intro c' hc'
    simp only [List.mem_singleton] at hc'
    subst hc'
    exact hcs _ _ _ h _ hc
  | multilinestring h =>
    refine wfL_of _ fun x hx => ?_
    obtain ⟨c, hc, rfl⟩ := List.mem_map.mp hx
    exact hrs _ _ _ h _ hc
  | multipolygon h =>
    refine wfL_of _ fun x hx => ?_
    obtain ⟨c, hc, rfl⟩ := List.mem_map.mp hx
    exact partsAt_mem (Q := fun rs => ∀ r ∈ rs, ∀ c ∈ r, c.length = d.n) hrs h _ hc

theorem isBox_wf {x0 y0 x1 y1 : Dbl} {g : Geom} (h : IsBox x0 y0 x1 y1 g) : g.WF := by
  rcases h with ⟨_, rfl⟩ | ⟨_, rfl⟩
  · intro r hr; cases hr
  · intro r hr c hc
    simp only [List.mem_singleton] at hr
    subst hr
    simp only [rectangle, List.mem_cons, List.not_mem_nil, or_false] at hc
    rcases hc with rfl | rfl | rfl | rfl | rfl <;> rfl

theorem slotAt_wf {parse : List Byte → Option Dbl} (hpe : parse [] = none) (hE : ∀ w, parse (69 :: w) = none) {kind : ArrayKind}
    {a : AArray} {i : Nat} {g : Geom} (h : kind.SlotAt parse a i (some g)) : g.WF := by
  cases kind with
  | native g d k hv => exact geomAt_wf h.2
  | boxes => obtain ⟨_, _, _, _, _, _, h⟩ := h; exact isBox_wf h
  | wkb k => obtain ⟨_, b, h, _⟩ := h; exact enc_wf _ b h
  | wkt k =>
    obtain ⟨b, h, _⟩ := h
    exact (C28_complete hpe hE h { pos := 0, left := 0, nv := 0, n := 0, coords := fun _ => 0 }).choose_spec.2.2

/-- Visiting a range of an array delivers the features of its slots. -/
theorem batch_visit {parse : List Byte → Option Dbl} (hpe : parse [] = none) (hE : ∀ w, parse (69 :: w) = none) (kind : ArrayKind)
    {r0 r : AReader} (hr : ReaderOf kind.id r0) {a : AArray} (hs : arrayReaderSetArray a r0 = .ok () r) (wkt : WktR) (wkb : WkbR)
    (start : Nat) (fs : List (Option Geom)) (hf : ∀ (t : Nat) f, fs[t]? = some f → kind.SlotAt parse a (start + t) f) :
    ∃ t, FeaturesTrace fs t ∧
      Behaves (fun _ h => arrayReaderVisit h parse { r with wkt := wkt, wkb := wkb } start fs.length) t (.done ()) := by
  cases kind with
  | native g d k hv => exact C38_reader g d k hv r0 r hr a hs wkt wkb start fs hf parse
  | boxes => exact C39_reader r0 r hr a hs wkt wkb start fs hf parse
  | wkb k =>
    refine C53_wkb_geometries k r0 r hr a hs wkt wkb start fs (fun t f ht => ?_) parse
    have := hf t f ht
    cases f <;> exact this
  | wkt k =>
    refine C53_wkt_geometries hpe hE k r0 r hr a hs wkt wkb start fs (fun t f ht => ?_)
    have := hf t f ht
    cases f <;> exact this

end Verif
