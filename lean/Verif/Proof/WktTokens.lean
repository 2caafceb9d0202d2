import Verif.Proof.WktLex
import Verif.Proof.Program
/-!
# A parser on tokens, which the WKT reader is shown to follow

A state transformer on the coordinate cache and the remaining tokens, with the callbacks it makes.
-/
namespace Verif
open Spec

/-- Callbacks made and, unless it fails, new data and remaining tokens. -/
abbrev TkP (χ χ' : Type) := χ → List Tok → List Event × Option (χ' × List Tok)

def tkThen {χ χ' : Type} (r : List Event × Option (χ × List Tok)) (b : TkP χ χ') : List Event × Option (χ' × List Tok) :=
  match r with
  | (t, some (x', ts')) => (t ++ (b x' ts').1, (b x' ts').2)
  | (t, none) => (t, none)

def tkSeq {χ χ' χ'' : Type} (a : TkP χ χ') (b : TkP χ' χ'') : TkP χ χ'' := fun x ts => tkThen (a x ts) b

def tkPure {χ χ' : Type} (f : χ → χ') : TkP χ χ' := fun x ts => ([], some (f x, ts))
def tkCall {χ : Type} (e : Event) : TkP χ χ := fun x ts => ([e], some (x, ts))

/-- Expect the token `k`. -/
def tkTok {χ : Type} (k : Tok) : TkP χ χ := fun x ts =>
  match ts with
  | [] => ([], none)
  | t :: ts' => if t = k then ([], some (x, ts')) else ([], none)

/-- Until the closing parenthesis: a comma and an item. -/
def tkLoop {χ : Type} (item : TkP χ χ) : Nat → TkP χ χ
  | 0 => fun _ _ => ([], none)
  | f + 1 => fun x ts =>
    match ts with
    | .closing :: _ => ([], some (x, ts))
    | .comma :: ts' => tkSeq item (tkLoop item f) x ts'
    | _ => ([], none)

def tkItems {χ : Type} (F : Nat) (item : TkP χ χ) : TkP χ χ := tkSeq item (tkLoop item F)

/-- `EMPTY`, or an opening parenthesis and `content`. -/
def tkEmptyOr {χ : Type} (content : Bool → TkP χ χ) : TkP χ χ := fun x ts =>
  match ts with
  | .opening b :: ts' => content b x ts'
  | .word w :: ts' => if w = str "EMPTY" then ([], some (x, ts')) else ([], none)
  | _ => ([], none)

section
variable (parse : List Byte → Option Dbl) (F : Nat)

/-- `k` numbers. -/
def tkOrds : Nat → List Tok → Option (Coord × List Tok)
  | 0, ts => some ([], ts)
  | k + 1, ts =>
    match ts with
    | .word w :: ts' =>
      match parse w with
      | some x => (tkOrds k ts').map fun p => (x :: p.1, p.2)
      | none => none
    | _ => none

/-- Coordinates are kept until there are 64. -/
def tkCoord (nv : Nat) : TkP (List Coord) (List Coord) := fun cs ts =>
  (if cs.length = 64 then [.coords nv cs] else [],
    (tkOrds parse nv ts).map fun p => ((if cs.length = 64 then [] else cs) ++ [p.1], p.2))

def tkFlush (nv : Nat) : TkP (List Coord) Unit := fun cs ts => (if cs = [] then [] else [.coords nv cs], some ((), ts))

def tkCoordinates (nv : Nat) : TkP Unit Unit :=
  tkEmptyOr fun _ => tkSeq (tkPure fun _ => []) (tkSeq (tkItems F (tkCoord parse nv)) (tkSeq (tkFlush nv) (tkTok .closing)))

def tkPoint (nv : Nat) : TkP Unit Unit :=
  tkEmptyOr fun _ => tkSeq (tkPure fun _ => []) (tkSeq (tkCoord parse nv) (tkSeq (tkFlush nv) (tkTok .closing)))

def tkMember (gt dims : Nat) (body : TkP Unit Unit) : TkP Unit Unit := tkSeq (tkCall (.geomStart gt dims)) (tkSeq body (tkCall .geomEnd))

def tkFlatPoint (nv : Nat) : TkP Unit Unit := tkSeq (tkPure fun _ => []) (tkSeq (tkCoord parse nv) (tkFlush nv))

def tkRing (nv : Nat) : TkP Unit Unit := tkSeq (tkCall .ringStart) (tkSeq (tkCoordinates parse F nv) (tkCall .ringEnd))

/-- Items in parentheses. -/
def tkGroup (item : TkP Unit Unit) : TkP Unit Unit := tkSeq (tkItems F item) (tkTok .closing)

def tkPolygon (nv : Nat) : TkP Unit Unit := tkEmptyOr fun _ => tkGroup F (tkRing parse F nv)

/-- Members of a multipoint with their own parentheses? -/
def tkVerbose : List Tok → Bool
  | .opening _ :: _ => true
  | .word (c :: _) :: _ => c = 69
  | _ => false

def tkMultipoint (nv dims : Nat) : TkP Unit Unit := tkEmptyOr fun b x ts =>
  if tkVerbose ts then tkGroup F (tkMember 1 dims (tkPoint parse nv)) x ts
  else if b then tkGroup F (tkMember 1 dims (tkFlatPoint parse nv)) x ts
  else ([], none)

def tkMultilinestring (nv dims : Nat) : TkP Unit Unit := tkEmptyOr fun _ => tkGroup F (tkMember 2 dims (tkCoordinates parse F nv))

def tkMultipolygon (nv dims : Nat) : TkP Unit Unit := tkEmptyOr fun _ => tkGroup F (tkMember 3 dims (tkPolygon parse F nv))

def tkCollection (tagged : TkP Unit Unit) : TkP Unit Unit := tkEmptyOr fun _ => tkGroup F tagged

def tkContent (tagged : TkP Unit Unit) (gt nv dims : Nat) : TkP Unit Unit :=
  if gt = 1 then tkPoint parse nv
  else if gt = 2 then tkCoordinates parse F nv
  else if gt = 3 then tkPolygon parse F nv
  else if gt = 4 then tkMultipoint parse F nv dims
  else if gt = 5 then tkMultilinestring parse F nv dims
  else if gt = 6 then tkMultipolygon parse F nv dims
  else tkCollection F tagged

/-- Keyword and dimensions: type, dimensions, number of ordinates, and the rest. -/
def tkTag (ts : List Tok) : Option (Nat × Nat × Nat × List Tok) :=
  match ts with
  | .word w :: ts' =>
    match wkrType w with
    | some gt => some (gt, dimsToks ts')
    | none => none
  | _ => none

def tkTagged : Nat → TkP Unit Unit
  | 0 => fun _ _ => ([], none)
  | f + 1 => fun x ts =>
    match tkTag ts with
    | none => ([], none)
    | some (gt, d, nv, ts') => tkMember gt d (tkContent parse F (tkTagged f) gt nv d) x ts'

def tkEnd : TkP Unit Unit := fun x ts => if ts = [] then ([], some (x, ts)) else ([], none)

def tkFeature (f : Nat) : TkP Unit Unit := tkSeq (tkCall .featStart) (tkSeq (tkTagged parse F f) (tkSeq (tkCall .featEnd) tkEnd))
end

end Verif
