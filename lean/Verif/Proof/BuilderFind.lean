import Verif.Spec.Builder
/-! # Finding a buffer by its flat number -/
namespace Verif
open Spec

def toFound (x : List Nat × Nat) : FoundBuffer := ⟨x.1, x.1.length, x.2⟩

mutual
theorem find_node {α : Type} (nb : α → Nat) : (t : ATree α) → (i skip : Nat) → (path : List Nat) → skip ≤ 1 → HasValidity nb t →
    (findBuffer nb t i path.length skip path).1 = ((flatBuffers nb skip path t)[i]?).map toFound ∧
    (if i < (flatBuffers nb skip path t).length then (i : Int) < (findBuffer nb t i path.length skip path).2
     else (findBuffer nb t i path.length skip path).2 = (flatBuffers nb skip path t).length)
  | .node a cs, i, skip, path, hs, hv => by
    unfold HasValidity at hv
    unfold findBuffer flatBuffers
    dsimp only
    have hl : ((List.range (nb a - skip)).map fun j => (path, j + skip)).length = nb a - skip := by simp
    by_cases h : i < nb a - skip
    · have h' : (i : Int) < (nb a : Int) - (skip : Int) := by omega
      rw [if_pos h', List.getElem?_append_left (by omega)]
      refine ⟨?_, ?_⟩
      · rw [List.getElem?_map, List.getElem?_range h]
        simp [toFound]
      · rw [if_pos (by rw [List.length_append]; omega)]
        exact h'
    · have h' : ¬ (i : Int) < (nb a : Int) - (skip : Int) := by omega
      have hi : (i : Int) - ((nb a : Int) - (skip : Int)) = ((i - (nb a - skip) : Nat) : Int) := by omega
      rw [if_neg h', List.getElem?_append_right (by omega), hl, hi]
      have ih := find_children nb cs (i - (nb a - skip)) 0 path hv.2 ((nb a : Int) - (skip : Int))
      refine ⟨ih.1, ?_⟩
      rw [List.length_append, hl]
      by_cases hlt : i - (nb a - skip) < (flatBuffersL nb path 0 cs).length
      · have := ih.2
        rw [if_pos hlt] at this
        rw [if_pos (by omega)]
        omega
      · have := ih.2
        rw [if_neg hlt] at this
        rw [if_neg (by omega)]
        omega
theorem find_children {α : Type} (nb : α → Nat) : (cs : List (ATree α)) → (i k : Nat) → (path : List Nat) → HasValidityL nb cs →
    (total : Int) →
    (findInChildren nb cs i total path.length path k).1 = ((flatBuffersL nb path k cs)[i]?).map toFound ∧
    (if i < (flatBuffersL nb path k cs).length then total + (i : Int) < (findInChildren nb cs i total path.length path k).2
     else (findInChildren nb cs i total path.length path k).2 = total + (flatBuffersL nb path k cs).length)
  | [], i, k, path, _, total => by
    unfold findInChildren flatBuffersL
    simp
  | c :: cs, i, k, path, hv, total => by
    unfold HasValidityL at hv
    unfold findInChildren flatBuffersL
    dsimp only
    have ih := find_node nb c i 1 (path ++ [k]) (by omega) hv.1
    have hlen : (path ++ [k]).length = path.length + 1 := by simp
    rw [hlen] at ih
    by_cases h : i < (flatBuffers nb 1 (path ++ [k]) c).length
    · rw [if_pos h] at ih
      rw [if_pos ih.2, List.getElem?_append_left h]
      refine ⟨ih.1, ?_⟩
      rw [if_pos (by rw [List.length_append]; omega)]
      have := ih.2
      dsimp only
      omega
    · rw [if_neg h] at ih
      have e := ih.2
      rw [if_neg (by omega), List.getElem?_append_right (by omega)]
      have hi : (i : Int) - (findBuffer nb c i (path.length + 1) 1 (path ++ [k])).2 =
          ((i - (flatBuffers nb 1 (path ++ [k]) c).length : Nat) : Int) := by omega
      rw [hi]
      have ih2 := find_children nb cs (i - (flatBuffers nb 1 (path ++ [k]) c).length) (k + 1) path hv.2
        (total + (findBuffer nb c i (path.length + 1) 1 (path ++ [k])).2)
      refine ⟨ih2.1, ?_⟩
      have h2 := ih2.2
      rw [List.length_append]
      by_cases hlt : i - (flatBuffers nb 1 (path ++ [k]) c).length < (flatBuffersL nb path (k + 1) cs).length
      · rw [if_pos hlt] at h2
        rw [if_pos (by omega)]
        omega
      · rw [if_neg hlt] at h2
        rw [if_neg (by omega)]
        omega
end

mutual
theorem hasValidity_kinds : (t : ATree BKind) → HasValidity BKind.nBuffers t
  | .node a cs => by
    unfold HasValidity
    exact ⟨by cases a <;> simp [BKind.nBuffers], hasValidity_kindsL cs⟩
theorem hasValidity_kindsL : (cs : List (ATree BKind)) → HasValidityL BKind.nBuffers cs
  | [] => by unfold HasValidityL; trivial
  | c :: cs => by unfold HasValidityL; exact ⟨hasValidity_kinds c, hasValidity_kindsL cs⟩
end

theorem slot_eq (b : Builder) (i : Nat) : b.slot i = ((flatBuffers BKind.nBuffers 0 [] b.tree)[i]?).map toFound :=
  (find_node BKind.nBuffers b.tree i 0 [] (by omega) (hasValidity_kinds b.tree)).1

theorem toFound_inj {x y : List Nat × Nat} (h : toFound x = toFound y) : x = y := by
  cases x; cases y
  unfold toFound at h
  simp only [FoundBuffer.mk.injEq] at h
  obtain ⟨rfl, -, h⟩ := h
  simp only [Prod.mk.injEq, true_and]
  omega

/-! ## The trees of the types -/

/-- The tree made for a type. -/
def typeTree (t : TypeId) : Option (ATree BKind) :=
  match schemaInit t with
  | .ok s => treeOf s
  | .error _ => none

def coordTree (d : Dims) : CoordKind → ATree BKind
  | .separate => .node .struct (List.replicate d.n (.node .double []))
  | .interleaved => .node (.fixed d.n) [.node .double []]

def listTree (d : Dims) (k : CoordKind) : Nat → ATree BKind
  | 0 => coordTree d k
  | l + 1 => .node .list [listTree d k l]

mutual
def ATree.same : ATree BKind → ATree BKind → Bool
  | .node a as, .node b bs => decide (a = b) && ATree.sameL as bs
def ATree.sameL : List (ATree BKind) → List (ATree BKind) → Bool
  | [], [] => true
  | a :: as, b :: bs => a.same b && ATree.sameL as bs
  | _, _ => false
end
mutual
theorem ATree.eq_of_same : (s t : ATree BKind) → s.same t = true → s = t
  | .node a as, .node b bs, h => by
    unfold ATree.same at h
    simp only [Bool.and_eq_true, decide_eq_true_eq] at h
    rw [h.1, ATree.eq_of_sameL as bs h.2]
theorem ATree.eq_of_sameL : (s t : List (ATree BKind)) → ATree.sameL s t = true → s = t
  | [], [], _ => rfl
  | a :: as, b :: bs, h => by
    unfold ATree.sameL at h
    simp only [Bool.and_eq_true] at h
    rw [ATree.eq_of_same a b h.1, ATree.eq_of_sameL as bs h.2]
  | [], _ :: _, h => by unfold ATree.sameL at h; cases h
  | _ :: _, [], h => by unfold ATree.sameL at h; cases h
end
def sameTree : Option (ATree BKind) → ATree BKind → Bool
  | some s, t => s.same t
  | none, _ => false
theorem eq_of_sameTree {s : Option (ATree BKind)} {t : ATree BKind} (h : sameTree s t = true) : s = some t := by
  cases s with
  | none => cases h
  | some s => rw [ATree.eq_of_same s t h]

theorem typeTree_native {g : Int} (hg : 1 ≤ g ∧ g ≤ 6) (d : Dims) (k : CoordKind) :
    typeTree (nativeId g d k) = some (listTree d k (listDepth g)) := by
  have h : g = 1 ∨ g = 2 ∨ g = 3 ∨ g = 4 ∨ g = 5 ∨ g = 6 := by omega
  rcases h with rfl | rfl | rfl | rfl | rfl | rfl <;> cases d <;> cases k <;> exact eq_of_sameTree (by decide +kernel)
end Verif
