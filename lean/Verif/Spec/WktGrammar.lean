import Verif.Spec.Wkt
/-!
# Specification: the well-known text the reader should accept

Text is divided into tokens; a grammar says which token sequences stand for which geometry, given how numbers are parsed.
Independent of the reader.
-/
namespace Verif.Spec
open Verif

/-- `(` (with whether the next character is something other than whitespace), `)`, `,` and words. -/
inductive Tok where
  | opening (tight : Bool)
  | closing
  | comma
  | word (w : List Byte)
  deriving DecidableEq, Repr

/-- Space, tab, newline, carriage return. -/
def isSpace (c : Byte) : Bool := c = 32 || c = 9 || c = 10 || c = 13

def startsTight : List Byte → Bool
  | c :: _ => !isSpace c
  | [] => true

/-- A word collected so far. -/
def wordTok (acc : List Byte) : List Tok := if acc = [] then [] else [.word acc]

/-- Tokens of a text, up to the first NUL character, `acc` being the beginning of a word. -/
def lexFrom (acc : List Byte) : List Byte → List Tok
  | [] => wordTok acc
  | c :: cs =>
    if c = 0 then wordTok acc
    else if isSpace c then wordTok acc ++ lexFrom [] cs
    else if c = 40 then wordTok acc ++ .opening (startsTight cs) :: lexFrom [] cs
    else if c = 41 then wordTok acc ++ .closing :: lexFrom [] cs
    else if c = 44 then wordTok acc ++ .comma :: lexFrom [] cs
    else lexFrom (acc ++ [c]) cs

def lex (text : List Byte) : List Tok := lexFrom [] text

/-- One or more things separated by commas. -/
def Separated {α : Type} (P : α → List Tok → Prop) : List α → List Tok → Prop
  | [], _ => False
  | x :: xs, ts => (xs = [] ∧ P x ts) ∨ ∃ t1 t2, P x t1 ∧ Separated P xs t2 ∧ ts = t1 ++ .comma :: t2

/-- `EMPTY`, or a parenthesised list. -/
def Listed {α : Type} (P : α → List Tok → Prop) (xs : List α) (ts : List Tok) : Prop :=
  (xs = [] ∧ ts = [.word (str "EMPTY")]) ∨ ∃ tight body, Separated P xs body ∧ ts = .opening tight :: body ++ [.closing]

section
variable (parse : List Byte → Option Dbl)

/-- A coordinate: one number per ordinate. -/
def CoordToks (d : Dims) (c : Coord) (ts : List Tok) : Prop :=
  c.length = d.n ∧ ∃ ws : List (List Byte), ts = ws.map Tok.word ∧ ws.map parse = c.map some

/-- `EMPTY`, or exactly one coordinate in parentheses. -/
def PointToks (d : Dims) (cs : List Coord) (ts : List Tok) : Prop :=
  (cs = [] ∧ ts = [.word (str "EMPTY")]) ∨
  ∃ tight c body, cs = [c] ∧ CoordToks parse d c body ∧ ts = .opening tight :: body ++ [.closing]

/-- The word for the dimensions. -/
def dimToks : Dims → List Tok
  | .xy => []
  | .xyz => [.word (str "Z")]
  | .xym => [.word (str "M")]
  | .xyzm => [.word (str "ZM")]

/-- Keyword and dimensions. -/
def tagToks (g : Geom) : List Tok := .word g.keyword :: dimToks g.dims

/-- Members of anything but a collection have the matching type and the dimensions of the whole. -/
def FitsMember (k : MultiKind) (d : Dims) (g : Geom) : Prop :=
  match k, g with
  | .multipoint, .point d' _ => d' = d
  | .multilinestring, .linestring d' _ => d' = d
  | .multipolygon, .polygon d' _ => d' = d
  | .collection, _ => True
  | _, _ => False

/-- A multipoint in the flat style: coordinates without parentheses of their own. There is no space after the opening
parenthesis and no member is empty. -/
def FlatToks (k : MultiKind) (d : Dims) (ps : List Geom) (ts : List Tok) : Prop :=
  k = .multipoint ∧ ∃ cs body, ps = cs.map (fun c => Geom.point d [c]) ∧ Separated (CoordToks parse d) cs body ∧
    ts = .opening true :: body ++ [.closing]

mutual
/-- What follows the tag. -/
def BodyToks : Geom → List Tok → Prop
  | .point d cs, ts => PointToks parse d cs ts
  | .linestring d cs, ts => Listed (CoordToks parse d) cs ts
  | .polygon d rs, ts => Listed (Listed (CoordToks parse d)) rs ts
  | .multi k d ps, ts => (ps = [] ∧ ts = [.word (str "EMPTY")]) ∨
      (∃ tight body, MemberToks k d ps body ∧ ts = .opening tight :: body ++ [.closing]) ∨
      FlatToks parse k d ps ts
/-- One or more members separated by commas; those of a collection carry a tag. -/
def MemberToks (k : MultiKind) (d : Dims) : List Geom → List Tok → Prop
  | [], _ => False
  | g :: gs, ts => FitsMember k d g ∧ ∃ b, BodyToks g b ∧
      ((gs = [] ∧ ts = (if k = .collection then tagToks g else []) ++ b) ∨
       ∃ t2, MemberToks k d gs t2 ∧ ts = (if k = .collection then tagToks g else []) ++ b ++ .comma :: t2)
end

/-- The token sequence of a geometry. -/
def GeomToks (g : Geom) (ts : List Tok) : Prop := ∃ b, BodyToks parse g b ∧ ts = tagToks g ++ b
end

/-- Text that is one word: not empty, without NUL, whitespace, parentheses and commas. -/
def IsWord (w : List Byte) : Prop := w ≠ [] ∧ ∀ c ∈ w, c ≠ 0 ∧ isSpace c = false ∧ c ≠ 40 ∧ c ≠ 41 ∧ c ≠ 44

mutual
/-- At every depth, members have the matching type and, except in collections, the dimensions of the whole. -/
def Geom.Uniform : Geom → Prop
  | .multi k d ps => Geom.UniformL k d ps
  | _ => True
def Geom.UniformL (k : MultiKind) (d : Dims) : List Geom → Prop
  | [] => True
  | g :: gs => FitsMember k d g ∧ g.Uniform ∧ Geom.UniformL k d gs
end

/-- A point without coordinates. -/
def Geom.EmptyPoint : Geom → Prop
  | .point _ cs => cs = []
  | _ => False

mutual
/-- No multipoint, at any depth, has both empty and other points. -/
def Geom.FlatReadable : Geom → Prop
  | .multi k _ ps => (k = .multipoint → (∀ g ∈ ps, g.EmptyPoint) ∨ ∀ g ∈ ps, ¬ g.EmptyPoint) ∧ Geom.FlatReadableL ps
  | _ => True
def Geom.FlatReadableL : List Geom → Prop
  | [] => True
  | g :: gs => g.FlatReadable ∧ Geom.FlatReadableL gs
end

mutual
/-- Every ordinate satisfies `Q`. -/
def Geom.Ordinates (Q : Dbl → Prop) : Geom → Prop
  | .point _ cs => ∀ c ∈ cs, ∀ x ∈ c, Q x
  | .linestring _ cs => ∀ c ∈ cs, ∀ x ∈ c, Q x
  | .polygon _ rs => ∀ r ∈ rs, ∀ c ∈ r, ∀ x ∈ c, Q x
  | .multi _ _ ps => Geom.OrdinatesL Q ps
def Geom.OrdinatesL (Q : Dbl → Prop) : List Geom → Prop
  | [] => True
  | g :: gs => g.Ordinates Q ∧ Geom.OrdinatesL Q gs
end

/-- The number `x` survives printing and parsing: it is printed as one word, which is parsed as `x`. -/
def PrintsWords (parse : List Byte → Option Dbl) (pr : Dbl → List Byte) (x : Dbl) : Prop := IsWord (pr x) ∧ parse (pr x) = some x

/-- A parenthesis, a comma or whitespace. -/
def isBreak (c : Byte) : Bool := c = 40 || c = 41 || c = 44 || isSpace c

/-- The place between `a` and `b` is at an end of the text or next to a parenthesis, a comma or whitespace. -/
def Boundary (a b : List Byte) : Prop :=
  a = [] ∨ b = [] ∨ (∃ c, a.getLast? = some c ∧ isBreak c = true) ∨ ∃ c, b.head? = some c ∧ isBreak c = true

end Verif.Spec
