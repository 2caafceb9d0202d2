import Verif.Spec.ScalarUdf
import Verif.Proof.ErrorText
/-!
# C84: a scalar function made by name does what the name says
-/
namespace Verif
open Spec Udf

/-- The only name there is is `void`. For other names the result is `ENOTSUP`, the caller's factory is left alone and the
message names what was asked for. -/
theorem C84_names {junk m text rest : List Byte} (out : Factory) (hm : IsError m) (hn : (0 : Byte) ∉ text) (hl : text.length ≤ 2147480000) :
    (text = str "void" ∧ ∃ f, factoryInit junk out (text ++ 0 :: rest) (some m) = (0, f, some m) ∧ ∀ b, (f.new b).isSome) ∨
    (text ≠ str "void" ∧ ∃ m', factoryInit junk out (text ++ 0 :: rest) (some m) = (95, out, some m') ∧ IsError m' ∧
      ShownText m' ((str "GeoArrow C scalar implementation with name '" ++ text ++ str "' does not exist").take 1023)) := by
  have ht : (text ++ 0 :: rest).takeWhile (· ≠ 0) = text := shown_takeWhile ⟨rest, rfl, hn⟩
  by_cases h : text = str "void"
  · refine Or.inl ⟨h, { out with newImpl := .newVoid, privateData := 0, release := .releaseFactory }, ?_, ?_⟩
    · unfold factoryInit; rw [if_pos (by rw [ht, h])]
    · intro b; rfl
  · refine Or.inr ⟨h, ?_⟩
    have hp : printAll (unknownPieces (text ++ 0 :: rest)) =
        str "GeoArrow C scalar implementation with name '" ++ text ++ str "' does not exist" := by
      have h1 : (str "GeoArrow C scalar implementation with name '").takeWhile (· ≠ 0) =
        str "GeoArrow C scalar implementation with name '" := by decide +kernel
      have h2 : (str "' does not exist").takeWhile (· ≠ 0) = str "' does not exist" := by decide +kernel
      simp only [unknownPieces, printAll, List.flatMap_cons, List.flatMap_nil, List.append_nil, Piece.print, h1, h2, ht, List.append_assoc]
    have hlen : (printAll (unknownPieces (text ++ 0 :: rest))).length ≤ 2147483647 := by
      have h1 : (str "GeoArrow C scalar implementation with name '").length ≤ 100 := by decide +kernel
      have h2 : (str "' does not exist").length ≤ 100 := by decide +kernel
      rw [hp]
      simp only [List.length_append]
      omega
    refine ⟨(printAll (unknownPieces (text ++ 0 :: rest))).take 1023 ++
      0 :: List.replicate (1023 - (printAll (unknownPieces (text ++ 0 :: rest))).length) 0, ?_, ?_, ?_⟩
    · unfold factoryInit
      rw [if_neg (by rw [ht]; exact h), errorSet_text _ hm hlen]
      rfl
    · show List.length _ = 1024
      simp only [List.length_append, List.length_take, List.length_cons, List.length_replicate]
      omega
    · rw [hp]
      exact ⟨_, rfl, fun hc => printAll_no_nul _ (hp ▸ List.mem_of_mem_take hc)⟩

/-- A function made by the factory. -/
def IsVoid (u : Impl) : Prop := u.init = .initVoid ∧ u.execute = .executeVoid ∧ u.lastError = .lastErrorVoid ∧ u.release = .releaseVoid

theorem void_finish (n : Int) (h : n ≤ 9223372036854775807) (a : NullArray) (ha : a.length = n) (ho : a.offset = 0) :
    (0 ≤ n → finishNull a = 0) ∧ (n < 0 → finishNull a ≠ 0) := by
  unfold finishNull
  rw [ha, ho]
  constructor
  · intro h0
    rw [if_neg (by omega), if_neg (by omega), if_neg (by omega)]
  · intro h0
    rw [if_pos h0]
    decide

/-- Whatever a client does with functions it made with the factory, in whatever order, every call is answered as promised:
the null type, as many nulls as rows, no error. A negative number of rows is refused.
Missing, as it is false (`C84_release_kept`): that released objects are marked as released. -/
theorem C84_answers_partial {f : Factory} {junk : List Byte} {out : Factory} {name : List Byte} {error error' : Option (List Byte)}
    (hf : factoryInit junk out name error = (0, f, error')) (cs : List UdfCall) (hc : UdfMade 0 cs)
    (hn : ∀ k args n, UdfCall.execute k args n ∈ cs → n ≤ 9223372036854775807) :
    ∃ rs us, udfRuns f cs [] = some (rs, us) ∧ List.Forall₂ VoidAnswer cs rs := by
  have hnew : f.newImpl = .newVoid := by
    unfold factoryInit at hf
    split at hf
    · cases hf; rfl
    · have : ENOTSUP = 0 := congrArg Prod.fst hf
      exact absurd this (by decide)
  suffices h : ∀ (us : List Impl), UdfMade us.length cs → (∀ u ∈ us, IsVoid u) →
      ∃ rs us', udfRuns f cs us = some (rs, us') ∧ List.Forall₂ VoidAnswer cs rs from h [] hc (by simp)
  clear hc
  induction cs with
  | nil => intro us _ _; exact ⟨[], us, rfl, .nil⟩
  | cons c cs ih =>
    intro us hm hv
    have ih' := ih (fun k args n h => hn k args n (List.mem_cons_of_mem _ h))
    have step : ∃ r us', c.run f us = some (r, us') ∧ VoidAnswer c r ∧ UdfMade us'.length cs ∧ ∀ u ∈ us', IsVoid u := by
      cases c with
      | make b =>
        refine ⟨.done, us ++ [{ b with init := .initVoid, execute := .executeVoid, lastError := .lastErrorVoid, release := .releaseVoid }], ?_, trivial, ?_, ?_⟩
        · simp only [UdfCall.run, Factory.new, hnew, Option.map_some]
        · simpa [UdfMade] using hm
        · intro u hu
          rcases List.mem_append.1 hu with hu | hu
          · exact hv u hu
          · rw [List.mem_singleton] at hu; subst hu; exact ⟨rfl, rfl, rfl, rfl⟩
      | init k args =>
        obtain ⟨hk, hm⟩ := hm
        have h1 := hv _ (List.getElem_mem hk)
        refine ⟨.type 0 (.mk (some (str "n")) none [] 2 [] false), us, ?_, ?_, hm, hv⟩
        · simp only [UdfCall.run, List.getElem?_eq_getElem hk, Option.bind_some, Impl.callInit, h1.1, Option.map_some]
        · exact ⟨rfl, rfl, rfl⟩
      | execute k args n =>
        obtain ⟨hk, hm⟩ := hm
        have h1 := hv _ (List.getElem_mem hk)
        refine ⟨.rows (finishNull { length := n, nullCount := n, offset := 0, nBuffers := 0, nChildren := 0, released := false })
          { length := n, nullCount := n, offset := 0, nBuffers := 0, nChildren := 0, released := false }, us, ?_, ?_, hm, hv⟩
        · simp only [UdfCall.run, List.getElem?_eq_getElem hk, Option.bind_some, Impl.callExecute, h1.2.1, Option.map_some]
        · have := void_finish n (hn k args n (by simp)) { length := n, nullCount := n, offset := 0, nBuffers := 0, nChildren := 0, released := false } rfl rfl
          exact ⟨fun h => ⟨this.1 h, rfl, rfl, rfl, rfl⟩, this.2⟩
      | lastError k =>
        obtain ⟨hk, hm⟩ := hm
        have h1 := hv _ (List.getElem_mem hk)
        refine ⟨.text none, us, ?_, rfl, hm, hv⟩
        simp only [UdfCall.run, List.getElem?_eq_getElem hk, Option.bind_some, Impl.callLastError, h1.2.2.1, Option.map_some]
      | release k =>
        obtain ⟨hk, hm⟩ := hm
        have h1 := hv _ (List.getElem_mem hk)
        refine ⟨.done, us.set k us[k], ?_, trivial, by rwa [List.length_set], ?_⟩
        · simp only [UdfCall.run, List.getElem?_eq_getElem hk, Option.bind_some, Impl.callRelease, h1.2.2.2, Option.map_some]
        · intro u hu
          rcases List.mem_or_eq_of_mem_set hu with hu | rfl
          · exact hv u hu
          · exact h1
    obtain ⟨r, us', h1, h2, h3, h4⟩ := step
    obtain ⟨rs, us'', h5, h6⟩ := ih' us' h3 h4
    refine ⟨r :: rs, us'', ?_, .cons h2 h6⟩
    unfold udfRuns
    rw [h1]
    simp only [h5, Option.map_some]

/-- The documentation says that releasing sets the pointer to the release function to `NULL`, by which clients tell that an
object was released (src/geoarrow/geoarrow_type.h:914, 936). Neither the functions nor their factory do so. -/
theorem C84_release_kept {f : Factory} {junk : List Byte} {out : Factory} {name : List Byte} {error error' : Option (List Byte)}
    (hf : factoryInit junk out name error = (0, f, error')) (b u : Impl) (hu : f.new b = some u) :
    f.release ≠ .null ∧ f.callRelease = some f ∧ u.release ≠ .null ∧ u.callRelease = some u := by
  unfold factoryInit at hf
  split at hf
  · cases hf
    cases hu
    exact ⟨nofun, rfl, nofun, rfl⟩
  · have : ENOTSUP = 0 := congrArg Prod.fst hf
    exact absurd this (by decide)

/-- The private data of a new function is whatever was in the caller's memory. -/
theorem C84_private_data_unset {f : Factory} {b u : Impl} (hu : f.new b = some u) : u.privateData = b.privateData := by
  unfold Factory.new at hu
  split at hu
  · cases hu; rfl
  · cases hu

/-- A refused number of rows leaves an array in the caller's structure that has to be released, although the call failed. -/
theorem C84_refused_rows_fill {f : Factory} {b u : Impl} (hu : f.new b = some u) (args : List NullArray) {n : Int} (hn : n < 0) :
    ∃ rc a, u.callExecute args n = some (rc, a) ∧ rc ≠ 0 ∧ a.released = false ∧ a.length < 0 := by
  unfold Factory.new at hu
  split at hu
  · cases hu
    refine ⟨_, _, rfl, ?_, rfl, hn⟩
    show finishNull _ ≠ 0
    unfold finishNull
    rw [if_pos hn]
    decide
  · cases hu

/-! ## Examples -/

/-- A factory before it is initialised. -/
def exFactory : Factory := ⟨.other 1, .other 2, 3⟩

/-- A function before it is made. -/
def exImpl : Impl := ⟨.other 1, .null, .other 2, .other 3, 77⟩

theorem exFactory_init : factoryInit [] exFactory (str "void" ++ [0, 5]) none = (0, ⟨.newVoid, .releaseFactory, 0⟩, none) := by decide +kernel

example : ∃ rs us, udfRuns ⟨.newVoid, .releaseFactory, 0⟩
    [.make exImpl, .init 0 [], .make exImpl, .execute 0 [] 12, .lastError 1, .execute 1 [] (-1), .release 0, .release 1] [] = some (rs, us) ∧
    List.Forall₂ VoidAnswer [.make exImpl, .init 0 [], .make exImpl, .execute 0 [] 12, .lastError 1, .execute 1 [] (-1), .release 0, .release 1] rs := by
  refine C84_answers_partial exFactory_init _ (by simp [UdfMade]) ?_
  intro k args n h
  simp at h
  rcases h with ⟨_, _, rfl⟩ | ⟨_, _, rfl⟩ <;> omega

example : (factoryInit [] exFactory (str "area" ++ [0]) none).1 = 95 ∧ (factoryInit [] exFactory (str "voided" ++ [0]) none).1 = 95 := by
  decide +kernel

end Verif
