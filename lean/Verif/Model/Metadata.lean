import Verif.Model.Basic
/-!
# `metadata.c`

Simplifications: allocation succeeds; error messages are not modelled, nor is what a failed parse leaves in the view. A string
view is the list of its bytes. Characters: 34 is `"`, 44 `,`, 58 `:`, 91 `[`, 92 `\`, 93 `]`, 110 `n`, 123 `{`, 125 `}`.
-/
namespace Verif

/-! ## Parsing -/

/-- What a parsing function comes to: it returns `GEOARROW_OK` with the rest of the text, returns `EINVAL`, reads a byte that
is not there, or is still running when the number of steps it was given is used up. -/
inductive PRes (α : Type) where
  | ok (a : α) (rest : List Byte)
  | err
  | oob
  | stuck
  deriving DecidableEq, Repr

/-- `NANOARROW_RETURN_NOT_OK` -/
def PRes.bind {α β : Type} (r : PRes α) (f : α → List Byte → PRes β) : PRes β :=
  match r with
  | .ok a rest => f a rest
  | .err => .err
  | .oob => .oob
  | .stuck => .stuck

/-- `ParseChar`, src/geoarrow/metadata.c:14-22 -/
def parseChar (c : Byte) : List Byte → PRes Unit
  | [] => .err
  | x :: s => if x = c then .ok () s else .err

/-- The characters of src/geoarrow/metadata.c:27 -/
def isSpace (c : Byte) : Bool := c = 32 || c = 9 || c = 10 || c = 13

/-- `SkipWhitespace`, src/geoarrow/metadata.c:24-34 -/
def skipSpace : List Byte → List Byte
  | [] => []
  | c :: s => if isSpace c then skipSpace s else c :: s

/-- `SkipUntil`, src/geoarrow/metadata.c:36-55 -/
def skipUntil (items : List Byte) : List Byte → Bool × List Byte
  | [] => (false, [])
  | c :: s => if c = 0 then (false, c :: s) else if items.contains c then (true, c :: s) else skipUntil items s

/-- What was consumed of `s` when `rest` is left: `out->data` is where `s` began, `out->size_bytes` how far it got. -/
def taken (s rest : List Byte) : List Byte := s.take (s.length - rest.length)

/-- `FindNull`, src/geoarrow/metadata.c:57-72 -/
def findNull (s : List Byte) : PRes (List Byte) :=
  if s.length < 4 then .err
  else if s.take 4 ≠ str "null" then .err
  else .ok (s.take 4) (s.drop 4)

/-- The loop of `FindString`, src/geoarrow/metadata.c:84-104; gives what is left after the closing quote. -/
def stringBody : (isEscape : Bool) → List Byte → Option (List Byte)
  | _, [] => none
  | esc, c :: s =>
    if !esc && c = 92 then stringBody true s
    else if !esc && c = 34 then some s
    else stringBody false s

section
-- The byte that lies behind the text, if there is one that may be read.
variable (after : Option Byte)

/-- `s->data[0]` when `s->size_bytes` is 0. Whatever the byte is, the functions below return `EINVAL`: those it leads to
decrease `size_bytes` to -1 and do not enter their loops. -/
def pastEnd {α : Type} : PRes α :=
  match after with
  | none => .oob
  | some _ => .err

/-- `FindString`, src/geoarrow/metadata.c:74-107 -/
def findString (s : List Byte) : PRes (List Byte) :=
  match s with
  | [] => pastEnd after
  | c :: s' =>
    if c ≠ 34 then .err
    else match stringBody false s' with
      | none => .err
      | some rest => .ok (taken s rest) rest

/-- The characters looked for, src/geoarrow/metadata.c:123, 160 -/
def nestItems (obj : Bool) : List Byte := if obj then [123, 91, 34, 125] else [91, 123, 34, 93]

/-- The loops of `FindList` (`obj` false) and `FindObject` (`obj` true), src/geoarrow/metadata.c:122-144, 159-181, for at most
so many turns. -/
def nestLoop : Nat → (obj : Bool) → List Byte → PRes Unit
  | 0, _, _ => .stuck
  | n + 1, obj, s =>
    if s = [] then .err
    else match skipUntil (nestItems obj) s with
      | (false, s') => nestLoop n obj s'
      | (true, []) => nestLoop n obj []
      | (true, c :: s') =>
        if c = 34 then (findString after (c :: s')).bind fun _ rest => nestLoop n obj rest
        else if c = 91 then (nestLoop n false s').bind fun _ rest => nestLoop n obj rest
        else if c = 123 then (nestLoop n true s').bind fun _ rest => nestLoop n obj rest
        else if c = (if obj then 125 else 93) then .ok () s'
        else nestLoop n obj (c :: s')

/-- `FindList` and `FindObject`, src/geoarrow/metadata.c:112-147, 149-184 -/
def findNest (n : Nat) (obj : Bool) (s : List Byte) : PRes (List Byte) :=
  match s with
  | [] => pastEnd after
  | c :: s' =>
    if c ≠ (if obj then 123 else 91) then .err
    else (nestLoop after n obj s').bind fun _ rest => .ok (taken s rest) rest

end

/-- `struct GeoArrowMetadataView`, src/geoarrow/geoarrow_type.h:618-634 -/
structure MdView where
  edge : Int
  crsType : Int
  crs : List Byte
  deriving DecidableEq, Repr

/-- `enum GeoArrowEdgeType`, src/geoarrow/geoarrow_type.h:424-431, from a JSON value, src/geoarrow/metadata.c:219-235 -/
def edgeOf (v : List Byte) : Option Int :=
  if v = str "\"spherical\"" then some 1
  else if v = str "\"planar\"" then some 0
  else if v = str "\"vincenty\"" then some 2
  else if v = str "\"thomas\"" then some 3
  else if v = str "\"andoyer\"" then some 4
  else if v = str "\"karney\"" then some 5
  else if v.head? = some 110 then some 0
  else none

/-- `strncmp(k.data, name, ...)` is compared with the key, which is `"crs_type"`, and so is never 0 (the second characters
differ); src/geoarrow/metadata.c:257-273 -/
def crsTypeOf (v : List Byte) : Option Int :=
  if v.head? = some 34 then
    if v.length = 10 then some 2
    else if v.length = 11 then some 3
    else if v.length = 16 then some 4
    else if v.length = 6 then some 5
    else some 1
  else none

/-- What a key and its value do to the view, src/geoarrow/metadata.c:218-274; `none` is `EINVAL`. -/
def applyPair (k v : List Byte) (w : MdView) : Option MdView :=
  if k = str "\"edges\"" then (edgeOf v).map fun e => { w with edge := e }
  else if k = str "\"crs\"" then
    if v.head? = some 123 ∨ v.head? = some 34 then
      some { w with crs := v, crsType := if w.crsType = 0 then 1 else w.crsType }
    else if v.head? = some 110 then some { w with crsType := 0 }
    else none
  else if k = str "\"crs_type\"" then (crsTypeOf v).map fun t => { w with crsType := t }
  else some w

section
variable (after : Option Byte)

/-- The value after a colon, src/geoarrow/metadata.c:200-216 -/
def findValue (n : Nat) (s : List Byte) : PRes (List Byte) :=
  match s with
  | [] => pastEnd after
  | c :: _ =>
    if c = 91 then findNest after n false s
    else if c = 123 then findNest after n true s
    else if c = 34 then findString after s
    else if c = 110 then findNull s
    else .err

/-- The loop of `ParseJSONMetadata` and what follows, src/geoarrow/metadata.c:193-289, for at most so many turns. -/
def jsonLoop : Nat → MdView → List Byte → PRes MdView
  | 0, _, _ => .stuck
  | n + 1, w, s =>
    match s with
    | [] => .err
    | c :: s0 =>
      if c = 125 then .ok w s0
      else
        (findString after (skipSpace s)).bind fun k s1 =>
        (parseChar 58 (skipSpace s1)).bind fun _ s2 =>
        (findValue after n (skipSpace s2)).bind fun v s3 =>
        match applyPair k v w with
        | none => .err
        | some w' =>
          match (skipUntil [44, 125] s3).2 with
          | [] => pastEnd after
          | d :: s4 => if d = 44 then jsonLoop n w' s4 else jsonLoop n w' (d :: s4)

/-- `ParseJSONMetadata`, src/geoarrow/metadata.c:186-290 -/
def parseJson (n : Nat) (w : MdView) (s : List Byte) : PRes MdView :=
  (parseChar 123 s).bind fun _ s1 => jsonLoop after n w (skipSpace s1)

/-- `GeoArrowMetadataViewInitJSON`, src/geoarrow/metadata.c:292-324 -/
def metadataViewInitJson (n : Nat) (text : List Byte) (w : MdView) : PRes MdView :=
  (parseJson after n w (skipSpace text)).bind fun w1 s =>
    if skipSpace s ≠ [] then .err
    else .ok (if w1.crs.length = 0 then { w1 with crsType := 0 } else w1) []

/-- `GeoArrowMetadataViewInit`, src/geoarrow/metadata.c:326-340, when at most `n` turns of the loops are made. -/
def metadataViewInit (n : Nat) (text : List Byte) : PRes MdView :=
  if text.length = 0 then .ok ⟨0, 0, []⟩ [] else metadataViewInitJson after n text ⟨0, 0, []⟩

end

/-! ## Serialising -/

/-- `GeoArrowEdgeTypeString`, src/geoarrow/geoarrow_type_inline.h:141-158 -/
def edgeString (e : Int) : List Byte :=
  if e = 0 then str "planar" else if e = 1 then str "spherical" else if e = 2 then str "vincenty" else if e = 3 then str "thomas"
  else if e = 4 then str "andoyer" else if e = 5 then str "karney" else str "<not valid>"

/-- `GeoArrowCrsTypeString`, src/geoarrow/geoarrow_type_inline.h:162-179 -/
def crsTypeString (t : Int) : List Byte :=
  if t = 0 then str "none" else if t = 1 then str "unknown" else if t = 2 then str "projjson" else if t = 3 then str "wkt2:2019"
  else if t = 4 then str "authority_code" else if t = 5 then str "srid" else str "<not valid>"

/-- `GeoArrowMetadataCrsNeedsEscape`, src/geoarrow/metadata.c:342-344 -/
def needsEscape (crs : List Byte) : Bool :=
  match crs with
  | [] => true
  | c :: _ => c ≠ 123 && c ≠ 34

/-- `GeoArrowMetadataCalculateSerializedSize`, src/geoarrow/metadata.c:346-393 -/
def mdSize (w : MdView) : Nat :=
  let edges := if w.edge ≠ 0 then 8 + 2 + (edgeString w.edge).length else 0
  let type := if w.crsType ≠ 1 ∧ w.crsType ≠ 0 then 11 + 2 + (crsTypeString w.crsType).length else 0
  let crs := if w.crsType ≠ 0 then
      6 + (if needsEscape w.crs then 2 + w.crs.length + (w.crs.filter fun c => c = 92 || c = 34).length else w.crs.length)
    else 0
  let keys := (if w.edge ≠ 0 then 1 else 0) + (if w.crsType ≠ 1 ∧ w.crsType ≠ 0 then 1 else 0) + (if w.crsType ≠ 0 then 1 else 0)
  2 + edges + type + crs + (if 1 < keys then keys - 1 else 0)

/-- The loop of src/geoarrow/metadata.c:450-457 -/
def escapeQuotes (crs : List Byte) : List Byte := crs.flatMap fun c => if c = 34 then [92, c] else [c]

/-- The bytes written by `GeoArrowMetadataSerializeInternal`, src/geoarrow/metadata.c:408-469 -/
def mdBytes (w : MdView) : List Byte :=
  let edges := if w.edge ≠ 0 then str "\"edges\":" ++ [34] ++ edgeString w.edge ++ [34] else []
  let type := if w.crsType ≠ 1 ∧ w.crsType ≠ 0 then
      (if w.edge ≠ 0 then [44] else []) ++ str "\"crs_type\":" ++ [34] ++ crsTypeString w.crsType ++ [34]
    else []
  let crs := if w.crsType ≠ 0 then
      (if w.edge ≠ 0 ∨ (w.crsType ≠ 1 ∧ w.crsType ≠ 0) then [44] else []) ++ str "\"crs\":" ++
      (if needsEscape w.crs then [34] ++ escapeQuotes w.crs ++ [34] else w.crs)
    else []
  [123] ++ edges ++ type ++ crs ++ [125]

/-- Writing bytes into a buffer at a place; `none` if they do not fit. -/
def writeAt (out : List Byte) (i : Nat) (bytes : List Byte) : Option (List Byte) :=
  if i + bytes.length ≤ out.length then some (out.take i ++ bytes ++ out.drop (i + bytes.length)) else none

/-- `GeoArrowMetadataSerialize`, src/geoarrow/metadata.c:506-521, into a buffer; `none` if it writes outside of it. -/
def mdSerialize (w : MdView) (out : List Byte) (n : Int) : Option (List Byte × Int) := do
  let size := mdSize w
  let out1 ← if (size : Int) ≤ n then writeAt out 0 (mdBytes w) else some out
  let out2 ← if (size : Int) < n then writeAt out1 size [0] else some out1
  pure (out2, size)

/-! ## Unescaping -/

/-- The loop of `GeoArrowUnescapeCrs`, src/geoarrow/metadata.c:567-581 -/
def unescapeLoop (n : Int) : List Byte → (isEscape : Bool) → List Byte → Nat → Option (List Byte × Nat)
  | [], _, out, i => some (out, i)
  | c :: s, esc, out, i =>
    if !esc && c = 92 then unescapeLoop n s true out i
    else do
      let out' ← if (i : Int) < n then writeAt out i [c] else some out
      unescapeLoop n s false out' (i + 1)

/-- `GeoArrowUnescapeCrs`, src/geoarrow/metadata.c:547-588; `out` is `none` for a null pointer, `n` is not negative. -/
def unescapeCrs (crs : List Byte) (out : Option (List Byte)) (n : Int) : Option (Option (List Byte) × Int) :=
  match crs with
  | [] =>
    if 0 < n then do
      let o ← out
      let o ← writeAt o 0 [0]
      pure (some o, 0)
    else some (out, 0)
  | c :: body =>
    if c ≠ 34 then
      if (crs.length : Int) < n then do
        let o ← out
        let o ← writeAt o 0 (crs ++ [0])
        pure (some o, crs.length)
      else match out with
        | none => some (none, crs.length)
        | some o => do
          let o ← writeAt o 0 (crs.take n.toNat)
          pure (some o, crs.length)
    else do
      let (o, i) ← match out with
        | none => if 0 < n then none else (unescapeLoop n (body.take (crs.length - 2)) false [] 0).map fun r => (none, r.2)
        | some o => (unescapeLoop n (body.take (crs.length - 2)) false o 0).map fun r => (some r.1, r.2)
      if (i : Int) < n then do
        let o ← o
        let o ← writeAt o i [0]
        pure (some o, (i : Int))
      else some (o, (i : Int))

end Verif
