import Verif.Proof.MetadataText
/-!
# What was found once is found again

The parser looks at no more than what it takes: a value it found is found again whatever follows it. So a text that was viewed gives a view
that can be serialised and viewed again.
-/
namespace Verif
open Spec

theorem stringBody_local : ∀ (s : List Byte) (esc : Bool) (rest : List Byte), stringBody esc s = some rest →
    ∃ p, s = p ++ rest ∧ ∀ t, stringBody esc (p ++ t) = some t
  | [], _, _, h => by cases h
  | c :: s, esc, rest, h => by
    unfold stringBody at h
    split at h
    next hc =>
      obtain ⟨p, rfl, hp⟩ := stringBody_local s true rest h
      exact ⟨c :: p, rfl, fun t => by rw [List.cons_append, stringBody, if_pos hc]; exact hp t⟩
    next hc =>
      split at h
      next hq =>
        cases h
        exact ⟨[c], rfl, fun t => by rw [List.cons_append, stringBody, if_neg hc, if_pos hq]; rfl⟩
      next hq =>
        obtain ⟨p, rfl, hp⟩ := stringBody_local s false rest h
        exact ⟨c :: p, rfl, fun t => by rw [List.cons_append, stringBody, if_neg hc, if_neg hq]; exact hp t⟩

theorem findString_local {after : Option Byte} {s v rest : List Byte} (h : findString after s = .ok v rest) :
    s = v ++ rest ∧ (∃ r, v = 34 :: r) ∧ ∀ after' t, findString after' (v ++ t) = .ok v t := by
  cases s with
  | nil => cases after <;> cases h
  | cons c s =>
    unfold findString at h
    dsimp only at h
    by_cases hc : c = 34
    · subst hc
      rw [if_neg (by simp)] at h
      cases hb : stringBody false s with
      | none => rw [hb] at h; cases h
      | some r =>
        rw [hb] at h
        obtain ⟨p, rfl, hp⟩ := stringBody_local s false r hb
        have ht := taken_append ((34 : Byte) :: p) r
        rw [List.cons_append] at ht
        simp only [ht, PRes.ok.injEq] at h
        obtain ⟨rfl, rfl⟩ := h
        refine ⟨rfl, ⟨p, rfl⟩, fun after' t => ?_⟩
        rw [List.cons_append, findString]
        have ht := taken_append ((34 : Byte) :: p) t
        rw [List.cons_append] at ht
        simp only [ne_eq, not_true, if_false, hp t, ht]
    · rw [if_pos hc] at h; cases h

theorem skipUntil_local {items : List Byte} : ∀ {s s' : List Byte} {c : Byte}, skipUntil items s = (true, c :: s') →
    ∃ p, s = p ++ c :: s' ∧ ∀ t, skipUntil items (p ++ c :: t) = (true, c :: t)
  | [], _, _, h => by cases h
  | d :: s, s', c, h => by
    unfold skipUntil at h
    split at h
    · cases h
    next h0 =>
      split at h
      next hm =>
        cases h
        exact ⟨[], rfl, fun t => by rw [List.nil_append, skipUntil, if_neg h0, if_pos hm]⟩
      next hm =>
        obtain ⟨p, rfl, hp⟩ := skipUntil_local h
        exact ⟨d :: p, rfl, fun t => by rw [List.cons_append, skipUntil, if_neg h0, if_neg hm]; exact hp t⟩

theorem skipUntil_none {items : List Byte} : ∀ {s s' : List Byte}, skipUntil items s = (false, s') → s' = [] ∨ ∃ r, s' = 0 :: r
  | [], _, h => by cases h; exact .inl rfl
  | d :: s, s', h => by
    unfold skipUntil at h
    split at h
    next h0 => cases h; exact .inr ⟨s, by rw [h0]⟩
    next h0 =>
      split at h
      · cases h
      · exact skipUntil_none h

theorem nestLoop_dead (after : Option Byte) (obj : Bool) : ∀ (n : Nat) {s rest : List Byte}, (s = [] ∨ ∃ r, s = 0 :: r) → nestLoop after n obj s ≠ .ok () rest
  | 0, _, _, _ => by intro h; cases h
  | n + 1, s, rest, hs => by
    intro h
    unfold nestLoop at h
    split at h
    · cases h
    next hne =>
      rcases hs with hs | ⟨r, rfl⟩
      · exact hne hs
      · rw [skipUntil, if_pos rfl] at h
        exact nestLoop_dead after obj n (.inr ⟨r, rfl⟩) h

theorem nestLoop_local (after : Option Byte) : ∀ (n : Nat) (obj : Bool) (s rest : List Byte), nestLoop after n obj s = .ok () rest →
    ∃ p, s = p ++ rest ∧ ∀ n', n ≤ n' → ∀ after' t, nestLoop after' n' obj (p ++ t) = .ok () t
  | 0, _, _, _, h => by cases h
  | n + 1, obj, s, rest, h => by
    unfold nestLoop at h
    split at h
    · cases h
    · cases hu : skipUntil (nestItems obj) s with
      | mk b s' =>
        rw [hu] at h
        cases b with
        | false => exact absurd h (nestLoop_dead after obj n (skipUntil_none hu))
        | true =>
          cases s' with
          | nil => exact absurd h (nestLoop_dead after obj n (.inl rfl))
          | cons c s' =>
            obtain ⟨p, rfl, hp⟩ := skipUntil_local hu
            dsimp only at h
            have step : ∀ n' after' t, nestLoop after' (n' + 1) obj (p ++ c :: t) =
                if c = 34 then (findString after' (c :: t)).bind fun _ rest => nestLoop after' n' obj rest
                else if c = 91 then (nestLoop after' n' false t).bind fun _ rest => nestLoop after' n' obj rest
                else if c = 123 then (nestLoop after' n' true t).bind fun _ rest => nestLoop after' n' obj rest
                else if c = (if obj then 125 else 93) then .ok () t
                else nestLoop after' n' obj (c :: t) := by
              intro n' after' t
              rw [nestLoop, if_neg (by simp), hp t]
            have two : ∀ o : Bool, (nestLoop after n o s').bind (fun _ rest => nestLoop after n obj rest) = .ok () rest →
                ∃ q, s' = q ++ rest ∧ ∀ n', n ≤ n' → ∀ after' t,
                  (nestLoop after' n' o (q ++ t)).bind (fun _ rest => nestLoop after' n' obj rest) = .ok () t := by
              intro o hb
              cases hr : nestLoop after n o s' with
              | ok u r =>
                rw [hr] at hb
                obtain ⟨q1, rfl, g1⟩ := nestLoop_local after n o s' r hr
                obtain ⟨q2, rfl, g2⟩ := nestLoop_local after n obj r rest hb
                refine ⟨q1 ++ q2, by simp, fun n' hn' after' t => ?_⟩
                rw [List.append_assoc, g1 n' hn']
                exact g2 n' hn' after' t
              | err => rw [hr] at hb; cases hb
              | oob => rw [hr] at hb; cases hb
              | stuck => rw [hr] at hb; cases hb
            by_cases h34 : c = 34
            · rw [if_pos h34] at h
              cases hr : findString after (c :: s') with
              | ok v r =>
                rw [hr] at h
                obtain ⟨e, ⟨v', rfl⟩, g1⟩ := findString_local hr
                obtain ⟨q2, rfl, g2⟩ := nestLoop_local after n obj r rest h
                rw [e]
                refine ⟨p ++ (34 :: v') ++ q2, by simp, fun n' hn' after' t => ?_⟩
                obtain ⟨k, rfl⟩ : ∃ k, n' = k + 1 := ⟨n' - 1, by omega⟩
                have e2 : p ++ (34 :: v') ++ q2 ++ t = p ++ c :: (v' ++ (q2 ++ t)) := by rw [h34]; simp
                rw [e2, step, if_pos h34, h34]
                have := g1 after' (q2 ++ t)
                rw [List.cons_append] at this
                rw [this]
                exact g2 k (by omega) after' t
              | err => rw [hr] at h; cases h
              | oob => rw [hr] at h; cases h
              | stuck => rw [hr] at h; cases h
            rw [if_neg h34] at h
            by_cases h91 : c = 91
            · rw [if_pos h91] at h
              obtain ⟨q, rfl, g⟩ := two false h
              refine ⟨p ++ c :: q, by simp, fun n' hn' after' t => ?_⟩
              obtain ⟨k, rfl⟩ : ∃ k, n' = k + 1 := ⟨n' - 1, by omega⟩
              rw [List.append_assoc, List.cons_append, step, if_neg h34, if_pos h91]
              exact g k (by omega) after' t
            rw [if_neg h91] at h
            by_cases h123 : c = 123
            · rw [if_pos h123] at h
              obtain ⟨q, rfl, g⟩ := two true h
              refine ⟨p ++ c :: q, by simp, fun n' hn' after' t => ?_⟩
              obtain ⟨k, rfl⟩ : ∃ k, n' = k + 1 := ⟨n' - 1, by omega⟩
              rw [List.append_assoc, List.cons_append, step, if_neg h34, if_neg h91, if_pos h123]
              exact g k (by omega) after' t
            rw [if_neg h123] at h
            by_cases hcl : c = (if obj then 125 else 93)
            · rw [if_pos hcl] at h
              cases h
              refine ⟨p ++ [c], by simp, fun n' hn' after' t => ?_⟩
              obtain ⟨k, rfl⟩ : ∃ k, n' = k + 1 := ⟨n' - 1, by omega⟩
              rw [List.append_assoc, List.singleton_append, step, if_neg h34, if_neg h91, if_neg h123, if_pos hcl]
            · exfalso
              have hin : c ∈ nestItems obj := by
                obtain ⟨d, r, e, hd⟩ := skipUntil_true (items := nestItems obj) (s := p ++ c :: s') (by rw [hu])
                rw [hu] at e
                cases e
                exact hd
              cases obj <;> simp [nestItems] at hin hcl <;> simp_all

theorem findNest_local {after : Option Byte} {n : Nat} {obj : Bool} {s v rest : List Byte} (h : findNest after n obj s = .ok v rest) :
    s = v ++ rest ∧ (∃ r, v = (if obj then 123 else 91) :: r) ∧ ∀ n', n ≤ n' → ∀ after' t, findNest after' n' obj (v ++ t) = .ok v t := by
  cases s with
  | nil => cases after <;> cases h
  | cons c s =>
    unfold findNest at h
    dsimp only at h
    by_cases hc : c = (if obj then 123 else 91)
    · rw [if_neg (by simp [hc])] at h
      cases hb : nestLoop after n obj s with
      | ok u r =>
        rw [hb] at h
        obtain ⟨p, rfl, hp⟩ := nestLoop_local after n obj s r hb
        have ht : ∀ t, taken (c :: (p ++ t)) t = c :: p := fun t => by
          have := taken_append (c :: p) t
          rwa [List.cons_append] at this
        simp only [PRes.bind, ht, PRes.ok.injEq] at h
        obtain ⟨rfl, rfl⟩ := h
        refine ⟨rfl, ⟨p, by rw [hc]⟩, fun n' hn' after' t => ?_⟩
        rw [List.cons_append, findNest]
        simp only [ne_eq, hc, not_true, if_false, hp n' hn' after' t, PRes.bind]
        rw [← hc, ht]
      | err => rw [hb] at h; cases h
      | oob => rw [hb] at h; cases h
      | stuck => rw [hb] at h; cases h
    · rw [if_pos hc] at h; cases h

/-- A value that was found is found again. -/
theorem findValue_local {after : Option Byte} {n : Nat} {s v rest : List Byte} (h : findValue after n s = .ok v rest) : Scans v := by
  cases s with
  | nil => cases after <;> cases h
  | cons c s =>
    unfold findValue at h
    dsimp only at h
    by_cases h91 : c = 91
    · rw [if_pos h91] at h
      obtain ⟨e, ⟨r, rfl⟩, g⟩ := findNest_local h
      refine ⟨⟨_, _, rfl, by decide⟩, fun t => ⟨n, fun n' hn' after' => ?_⟩⟩
      have := g n' hn' after' t
      simpa [findValue] using this
    rw [if_neg h91] at h
    by_cases h123 : c = 123
    · rw [if_pos h123] at h
      obtain ⟨e, ⟨r, rfl⟩, g⟩ := findNest_local h
      refine ⟨⟨_, _, rfl, by decide⟩, fun t => ⟨n, fun n' hn' after' => ?_⟩⟩
      have := g n' hn' after' t
      simpa [findValue] using this
    rw [if_neg h123] at h
    by_cases h34 : c = 34
    · rw [if_pos h34] at h
      obtain ⟨e, ⟨r, rfl⟩, g⟩ := findString_local h
      refine ⟨⟨_, _, rfl, by decide⟩, fun t => ⟨n, fun n' hn' after' => ?_⟩⟩
      have := g after' t
      simpa [findValue] using this
    rw [if_neg h34] at h
    by_cases h110 : c = 110
    · rw [if_pos h110] at h
      unfold findNull at h
      split at h
      · cases h
      split at h
      · cases h
      next hn =>
        cases h
        rw [Decidable.not_not.mp hn]
        exact ⟨⟨_, _, rfl, by decide⟩, fun t => ⟨0, fun n' _ after' => by simp [findValue, findNull, str]⟩⟩
    · rw [if_neg h110] at h; cases h

/-- What views look like. -/
structure MdView.Read (w : MdView) : Prop where
  edge : 0 ≤ w.edge ∧ w.edge ≤ 5
  type : 0 ≤ w.crsType ∧ w.crsType ≤ 5
  crs : w.crs = [] ∨ Scans w.crs ∧ (w.crs.head? = some 123 ∨ w.crs.head? = some 34)

theorem applyPair_read {k v : List Byte} {w w' : MdView} (hv : Scans v) (hw : w.Read) (h : applyPair k v w = some w') : w'.Read := by
  unfold applyPair at h
  split at h
  · unfold edgeOf at h
    repeat' split at h
    all_goals first
      | cases h; done
      | (simp only [Option.map_some, Option.some.injEq] at h; rw [← h]; exact ⟨by dsimp only; omega, hw.type, hw.crs⟩)
  split at h
  · split at h
    next hh =>
      cases h
      refine ⟨hw.edge, ?_, .inr ⟨hv, hh⟩⟩
      have := hw.type
      dsimp only
      split <;> omega
    · split at h
      · cases h; exact ⟨hw.edge, by dsimp only; omega, hw.crs⟩
      · cases h
  split at h
  · unfold crsTypeOf at h
    repeat' split at h
    all_goals first
      | cases h; done
      | (simp only [Option.map_some, Option.some.injEq] at h; rw [← h]; exact ⟨hw.edge, by dsimp only; omega, hw.crs⟩)
  · cases h; exact hw

theorem jsonLoop_read (after : Option Byte) : ∀ (n : Nat) (w : MdView) (s : List Byte) (w' : MdView) (rest : List Byte), w.Read →
    jsonLoop after n w s = .ok w' rest → w'.Read
  | 0, _, _, _, _, _, h => by cases h
  | n + 1, w, s, w', rest, hw, h => by
    cases s with
    | nil => cases h
    | cons c s0 =>
      unfold jsonLoop at h
      dsimp only at h
      split at h
      · cases h; exact hw
      · cases h1 : findString after (skipSpace (c :: s0)) with
        | ok k s1 =>
          rw [h1] at h
          simp only [PRes.bind] at h
          cases h2 : parseChar 58 (skipSpace s1) with
          | ok u s2 =>
            rw [h2] at h
            dsimp only at h
            cases h3 : findValue after n (skipSpace s2) with
            | ok v s3 =>
              rw [h3] at h
              dsimp only at h
              cases h4 : applyPair k v w with
              | none => rw [h4] at h; cases h
              | some w1 =>
                rw [h4] at h
                have hw1 := applyPair_read (findValue_local h3) hw h4
                dsimp only at h
                split at h
                · cases after <;> cases h
                · split at h
                  · exact jsonLoop_read after n w1 _ w' rest hw1 h
                  · exact jsonLoop_read after n w1 _ w' rest hw1 h
            | err => rw [h3] at h; cases h
            | oob => rw [h3] at h; cases h
            | stuck => rw [h3] at h; cases h
          | err => rw [h2] at h; cases h
          | oob => rw [h2] at h; cases h
          | stuck => rw [h2] at h; cases h
        | err => rw [h1] at h; cases h
        | oob => rw [h1] at h; cases h
        | stuck => rw [h1] at h; cases h

/-- The views of texts. -/
theorem metadata_read {after : Option Byte} {n : Nat} {text : List Byte} {w : MdView} {rest : List Byte}
    (h : metadataViewInit after n text = .ok w rest) : w.Read := by
  unfold metadataViewInit at h
  split at h
  · cases h; exact ⟨by decide, by decide, .inl rfl⟩
  · unfold metadataViewInitJson parseJson at h
    cases h1 : parseChar 123 (skipSpace text) with
    | ok u s1 =>
      rw [h1] at h
      simp only [PRes.bind] at h
      cases h2 : jsonLoop after n ⟨0, 0, []⟩ (skipSpace s1) with
      | ok w1 s =>
        rw [h2] at h
        have hw := jsonLoop_read after n ⟨0, 0, []⟩ _ w1 s ⟨by decide, by decide, .inl rfl⟩ h2
        dsimp only at h
        split at h
        · cases h
        · split at h
          · cases h; exact ⟨hw.edge, by dsimp only; omega, hw.crs⟩
          · cases h; exact hw
      | err => rw [h2] at h; cases h
      | oob => rw [h2] at h; cases h
      | stuck => rw [h2] at h; cases h
    | err => rw [h1] at h; cases h
    | oob => rw [h1] at h; cases h
    | stuck => rw [h1] at h; cases h

end Verif
