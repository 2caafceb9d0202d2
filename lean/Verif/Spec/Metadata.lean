import Verif.Model.Metadata
/-!
# Specification: JSON text, metadata

Of the model, only the functions a client calls are used, to say what they return.
-/
namespace Verif.Spec
open Verif

/-! ## JSON -/

/-- Spaces, tabs and line breaks. -/
def IsSpaces (w : List Byte) : Prop := ∀ c ∈ w, c = 32 ∨ c = 9 ∨ c = 10 ∨ c = 13

/-- What stands between the quotes of a JSON string: characters other than the quote and the backslash, and backslashes followed
by some character. (JSON allows less.) -/
inductive StringText : List Byte → Prop where
  | nil : StringText []
  | plain {c w} : c ≠ 34 → c ≠ 92 → StringText w → StringText (c :: w)
  | escape {c w} : StringText w → StringText (92 :: c :: w)

/-- Texts of JSON values, of the elements of an array and of the members of an object. Numbers, `true`, `false` and `null` are
any word of letters, digits, `+`, `-` and `.`. -/
inductive JsonKind where
  | value | elements | members

/-- Characters of numbers and of the words `true`, `false` and `null`. -/
def IsWordChar (c : Byte) : Prop := (48 ≤ c ∧ c ≤ 57) ∨ (65 ≤ c ∧ c ≤ 90) ∨ (97 ≤ c ∧ c ≤ 122) ∨ c = 43 ∨ c = 45 ∨ c = 46

inductive Json : JsonKind → List Byte → Prop where
  | word {w} : w ≠ [] → (∀ c ∈ w, IsWordChar c) → Json .value w
  | string {w} : StringText w → Json .value ([34] ++ w ++ [34])
  | emptyArray {s} : IsSpaces s → Json .value ([91] ++ s ++ [93])
  | array {t} : Json .elements t → Json .value ([91] ++ t ++ [93])
  | emptyObject {s} : IsSpaces s → Json .value ([123] ++ s ++ [125])
  | object {t} : Json .members t → Json .value ([123] ++ t ++ [125])
  | element {s v s'} : IsSpaces s → Json .value v → IsSpaces s' → Json .elements (s ++ v ++ s')
  | elements {t t'} : Json .elements t → Json .elements t' → Json .elements (t ++ [44] ++ t')
  | member {s k s' t v t'} : IsSpaces s → StringText k → IsSpaces s' → IsSpaces t → Json .value v → IsSpaces t' →
      Json .members (s ++ ([34] ++ k ++ [34]) ++ s' ++ [58] ++ t ++ v ++ t')
  | members {t t'} : Json .members t → Json .members t' → Json .members (t ++ [44] ++ t')

/-! ## Metadata -/

/-- Viewing a text returns this, whatever lies behind the text. -/
def Views (text : List Byte) (w : MdView) : Prop := ∃ n0, ∀ n, n0 ≤ n → ∀ after, metadataViewInit after n text = .ok w []

/-- Viewing a text returns an error, whatever lies behind the text. -/
def Rejects (text : List Byte) : Prop := ∃ n0, ∀ n, n0 ≤ n → ∀ after, metadataViewInit after n text = .err

/-- Viewing a text never returns. -/
def Hangs (text : List Byte) : Prop := ∀ n after, metadataViewInit after n text = .stuck

/-- Viewing a text reads a byte behind it. -/
def ReadsBehind (text : List Byte) : Prop := ∃ n, metadataViewInit none n text = .oob

/-- A quoted text in which quotes and backslashes are escaped. -/
def jsonQuote (text : List Byte) : List Byte :=
  [34] ++ (text.flatMap fun c => if c = 34 ∨ c = 92 then [92, c] else [c]) ++ [34]

/-- A text between quotes and what is left of it without the backslashes that escape characters. -/
inductive Unescaped : List Byte → List Byte → Prop where
  | nil : Unescaped [] []
  | plain {c w u} : c ≠ 34 → c ≠ 92 → Unescaped w u → Unescaped (c :: w) (c :: u)
  | escape {c w u} : Unescaped w u → Unescaped (92 :: c :: w) (c :: u)

/-- A buffer after a text was written to it: as much of it as fits, and a terminator if there is room. -/
def filled (text out : List Byte) : List Byte :=
  if text.length < out.length then text ++ [0] ++ out.drop (text.length + 1) else text.take out.length

/-- The text a client gets for a CRS, with buffers of any size. -/
def CrsText (crs text : List Byte) : Prop :=
  ∀ out : List Byte, unescapeCrs crs (some out) out.length = some (some (filled text out), (text.length : Int))

/-- Serialising a view reports this text's length; the text is written if it fits, and a terminator if there is room. -/
def MdSerialized (w : MdView) (text : List Byte) : Prop :=
  ∀ out : List Byte, mdSerialize w out out.length = some (if text.length ≤ out.length then filled text out else out, (text.length : Int))

/-- Numbers of the edge types and of the CRS types (`enum GeoArrowEdgeType`, `enum GeoArrowCrsType`). -/
def EdgeNamed (name : List Byte) (e : Int) : Prop :=
  (name = str "planar" ∧ e = 0) ∨ (name = str "spherical" ∧ e = 1) ∨ (name = str "vincenty" ∧ e = 2) ∨ (name = str "thomas" ∧ e = 3) ∨
  (name = str "andoyer" ∧ e = 4) ∨ (name = str "karney" ∧ e = 5)

def CrsTypeNamed (name : List Byte) (t : Int) : Prop :=
  (name = str "projjson" ∧ t = 2) ∨ (name = str "wkt2:2019" ∧ t = 3) ∨ (name = str "authority_code" ∧ t = 4) ∨ (name = str "srid" ∧ t = 5)

/-- A member of the metadata object with the spaces around its parts: the key without quotes, and a value that is an array, an
object, a string or null. -/
structure Member where
  s1 : List Byte
  key : List Byte
  s2 : List Byte
  s3 : List Byte
  value : List Byte
  s4 : List Byte

def Member.Ok (m : Member) : Prop :=
  IsSpaces m.s1 ∧ StringText m.key ∧ IsSpaces m.s2 ∧ IsSpaces m.s3 ∧ Json .value m.value ∧ IsSpaces m.s4 ∧
  (m.value.head? = some 91 ∨ m.value.head? = some 123 ∨ m.value.head? = some 34 ∨ m.value = str "null")

def Member.text (m : Member) : List Byte := m.s1 ++ ([34] ++ m.key ++ [34]) ++ m.s2 ++ [58] ++ m.s3 ++ m.value ++ m.s4

/-- Members separated by commas. -/
def membersText : List Member → List Byte
  | [] => []
  | [m] => m.text
  | m :: ms => m.text ++ [44] ++ membersText ms

/-- A metadata text: an object with spaces around. -/
def metadataText (s : List Byte) (ms : List Member) (s' : List Byte) : List Byte := s ++ [123] ++ membersText ms ++ [125] ++ s'

end Verif.Spec
