import Verif.Model.TypeInline
/-!
# Arrow schemas: `schema.c`, `schema_view.c` and the parts of nanoarrow they call

A schema is a tree. C strings are the bytes before the terminating NUL; `none` is `NULL`. Simplifications: children are
valid (neither `NULL` nor released), metadata is a list of keys and values instead of one block of memory, a dictionary is
only known to be present or not, and error messages are left out.
-/
namespace Verif

/-- `struct ArrowSchema`, src/vendor/nanoarrow/nanoarrow.h -/
inductive ASchema where
  | mk (format name : Option (List Byte)) (metadata : List (List Byte × List Byte)) (flags : Int) (children : List ASchema)
    (dictionary : Bool)
  deriving Repr

namespace ASchema
def format : ASchema → Option (List Byte)
  | .mk f _ _ _ _ _ => f
def name : ASchema → Option (List Byte)
  | .mk _ n _ _ _ _ => n
def metadata : ASchema → List (List Byte × List Byte)
  | .mk _ _ m _ _ _ => m
def flags : ASchema → Int
  | .mk _ _ _ f _ _ => f
def children : ASchema → List ASchema
  | .mk _ _ _ _ c _ => c
def dictionary : ASchema → Bool
  | .mk _ _ _ _ _ d => d
/-- `ArrowSchemaSetName`, src/vendor/nanoarrow/nanoarrow.c:1070-1088 -/
def setName : ASchema → List Byte → ASchema
  | .mk f _ m fl c d, n => .mk f (some n) m fl c d
/-- `schema->flags = 0` -/
def setRequired : ASchema → ASchema
  | .mk f n m _ c d => .mk f n m 0 c d
/-- `ArrowSchemaSetMetadata`, src/vendor/nanoarrow/nanoarrow.c:1090-1108 -/
def setMetadata : ASchema → List (List Byte × List Byte) → ASchema
  | .mk f n _ fl c d, m => .mk f n m fl c d
end ASchema

/-! ## nanoarrow's view of a schema -/

/-- The values of `enum ArrowType` that matter here. -/
inductive NaType where
  | string | largeString | stringView | binary | largeBinary | binaryView | struct | list | fixedSizeList | double
  deriving DecidableEq, Repr

/-- `struct ArrowSchemaView` as far as it is used. -/
structure NaView where
  type : NaType
  fixedSize : Int
  extName : Option (List Byte)
  extMetadata : Option (List Byte)

/-- `isspace` in the C locale. -/
def cIsSpace (c : Byte) : Bool := c = 32 || c = 9 || c = 10 || c = 11 || c = 12 || c = 13

def cIsDigit (c : Byte) : Bool := 48 ≤ c.toNat && c.toNat ≤ 57

/-- Value of decimal digits, added to `acc`, and what follows them. -/
def digitsFrom : Nat → List Byte → Nat × List Byte
  | acc, [] => (acc, [])
  | acc, c :: cs => if cIsDigit c then digitsFrom (10 * acc + (c.toNat - 48)) cs else (acc, c :: cs)

/-- Clamp to the range of a 64-bit `long`. -/
def clampLong (x : Int) : Int := if x > 9223372036854775807 then 9223372036854775807 else if x < -9223372036854775808 then -9223372036854775808 else x

/-- After the sign: digits, or nothing converted. -/
def strtolDigits (s : List Byte) (neg : Bool) (cs : List Byte) : Int × List Byte :=
  match cs with
  | c :: _ =>
    if cIsDigit c then
      (clampLong (if neg then -((digitsFrom 0 cs).1 : Int) else (digitsFrom 0 cs).1), (digitsFrom 0 cs).2)
    else (0, s)
  | [] => (0, s)

/-- C `strtol(s, &end, 10)` with a 64-bit `long`: value and the text from `end` on. -/
def strtol (s : List Byte) : Int × List Byte :=
  match s.dropWhile cIsSpace with
  | 45 :: cs => strtolDigits s true cs
  | 43 :: cs => strtolDigits s false cs
  | cs => strtolDigits s false cs

/-- Conversion of a `long` to `int32_t`. -/
def toInt32 (x : Int) : Int := (x + 2147483648) % 4294967296 - 2147483648

/-- `ArrowSchemaViewParse` and the check that the whole format was used, src/vendor/nanoarrow/nanoarrow.c:1217-1663 and
1877-1882. Type and fixed size. Formats of other types are treated as errors: a GeoArrow schema view of them is rejected
with the same code later. -/
def naParse (format : List Byte) : Option (NaType × Int) :=
  if format = str "u" then some (.string, 0)
  else if format = str "U" then some (.largeString, 0)
  else if format = str "vu" then some (.stringView, 0)
  else if format = str "z" then some (.binary, 0)
  else if format = str "Z" then some (.largeBinary, 0)
  else if format = str "vz" then some (.binaryView, 0)
  else if format = str "g" then some (.double, 0)
  else if format = str "+s" then some (.struct, 0)
  else if format = str "+l" then some (.list, 0)
  else
    match format with
    | 43 :: 119 :: 58 :: c :: cs =>
      if (strtol (c :: cs)).2 = [] then some (.fixedSizeList, toInt32 (strtol (c :: cs)).1) else none
    | _ => none

/-- `ArrowSchemaViewValidate` for these types, src/vendor/nanoarrow/nanoarrow.c:1758-1834 -/
def naChildrenOk (type : NaType) (n : Nat) : Bool :=
  match type with
  | .struct => true
  | .list => n = 1
  | .fixedSizeList => n = 1
  | _ => n = 0

/-- `ArrowMetadataGetValue`: the value of the first matching key, src/vendor/nanoarrow/nanoarrow.c:2141-2170 -/
def metadataGet (key : List Byte) : List (List Byte × List Byte) → Option (List Byte)
  | [] => none
  | (k, v) :: rest => if k = key then some v else metadataGet key rest

/-- `ArrowSchemaViewInit`, src/vendor/nanoarrow/nanoarrow.c:1836-1932. All its failures are `EINVAL`. Dictionaries are only
allowed on integers, sorted keys only on maps. -/
def naInit (s : ASchema) : Option NaView :=
  match s.format with
  | none => none
  | some format =>
    match naParse format with
    | none => none
    | some (type, size) =>
      if s.dictionary then none
      else if naChildrenOk type s.children.length then
        if s.flags = 0 ∨ s.flags = 2 then
          some { type := type, fixedSize := size, extName := metadataGet (str "ARROW:extension:name") s.metadata,
                 extMetadata := metadataGet (str "ARROW:extension:metadata") s.metadata }
        else none
      else none

/-! ## `schema_view.c` -/

/-- `struct GeoArrowSchemaView`, src/geoarrow/geoarrow_type.h:591-615; the member `schema` is not modelled. -/
structure SView where
  extName : Option (List Byte)
  extMetadata : Option (List Byte)
  type : TypeId
  geometryType : Int
  dimensions : Int
  coordType : Int
  deriving DecidableEq, Repr

/-- `ArrowSchemaViewInit` in a function that returns its error. -/
def svNa (s : ASchema) : M SView NaView :=
  match naInit s with
  | some v => pure v
  | none => M.fail EINVAL

/-- `strcmp(s->format, text) == 0`; undefined behaviour for `NULL`. -/
def svFormatIs (s : ASchema) (text : List Byte) : M SView Bool :=
  match s.format with
  | some f => pure (f = text)
  | none => M.undef

/-- The comparison of a name with the four names of dimensions, src/geoarrow/schema_view.c:27-34, 100-107, 209-216 -/
def svDimsOf (name : List Byte) : Option Int :=
  if name = str "xy" then some 1
  else if name = str "xyz" then some 2
  else if name = str "xym" then some 3
  else if name = str "xyzm" then some 4
  else none

/-- The guess from the fixed size, src/geoarrow/schema_view.c:36-52 -/
def svGuess (size : Int) : Option Int :=
  if size = 2 then some 1 else if size = 3 then some 2 else if size = 4 then some 4 else none

/-- `GeoArrowParsePointFixedSizeList`, src/geoarrow/schema_view.c:9-68. A missing name is `"<NULL>"`. -/
def svFixedSizeList (s : ASchema) : M SView Unit :=
  match s.children with
  | [child] => do
    let isDouble ← svFormatIs child (str "g")
    if !isDouble then M.fail EINVAL
    else do
      let na ← svNa s
      match (svDimsOf (child.name.getD (str "<NULL>"))).or (svGuess na.fixedSize) with
      | none => M.fail EINVAL
      | some d => do
        M.modify fun v => { v with dimensions := d }
        match numDimensions d with
        | none => M.undef
        | some n =>
          if n ≠ na.fixedSize then M.fail EINVAL
          else M.modify fun v => { v with coordType := 2 }
  | _ => M.fail EINVAL

/-- The loop over the children of a struct, src/geoarrow/schema_view.c:82-98: the names, which have one character. -/
def svStructNames : List ASchema → M SView (List Byte)
  | [] => pure []
  | c :: cs =>
    match c.name with
    | some [x] => do
      let isDouble ← svFormatIs c (str "g")
      if !isDouble then M.fail EINVAL
      else do
        let rest ← svStructNames cs
        pure (x :: rest)
    | _ => M.fail EINVAL

/-- `GeoArrowParsePointStruct`, src/geoarrow/schema_view.c:70-122 -/
def svStruct (s : ASchema) : M SView Unit :=
  if s.children.length < 2 ∨ s.children.length > 4 then M.fail EINVAL
  else do
    let names ← svStructNames s.children
    match svDimsOf names with
    | none => M.fail EINVAL
    | some d => M.modify fun v => { v with dimensions := d, coordType := 1 }

/-- `strncmp(format, "+w:", 3) == 0` -/
def isFixedSizeFormat : List Byte → Bool
  | 43 :: 119 :: 58 :: _ => true
  | _ => false

/-- `GeoArrowParseNestedSchema`, src/geoarrow/schema_view.c:124-152 -/
def svNested : Nat → ASchema → M SView Unit
  | 0, s =>
    match s.format with
    | none => M.undef
    | some f =>
      if f = str "+s" then svStruct s
      else if isFixedSizeFormat f then svFixedSizeList s
      else M.fail EINVAL
  | n + 1, s =>
    match s.format with
    | none => M.undef
    | some f =>
      if f = str "+l" then
        match s.children with
        | [child] => svNested n child
        | _ => M.fail EINVAL
      else M.fail EINVAL

/-- `GeoArrowParseBoxChild` and the comparison of the suffix, src/geoarrow/schema_view.c:154-171, 200-206, 227-233: the first
character of the name. -/
def svBoxChild (suffix : List Byte) (c : ASchema) : M SView Byte :=
  match c.name with
  | some [x, a, b, d] => do
    let isDouble ← svFormatIs c (str "g")
    if !isDouble then M.fail EINVAL
    else if [a, b, d] = suffix then pure x
    else M.fail EINVAL
  | _ => M.fail EINVAL

/-- The first loop of `GeoArrowParseBox`, src/geoarrow/schema_view.c:198-207 -/
def svBoxMins : List ASchema → M SView (List Byte)
  | [] => pure []
  | c :: cs => do
    let x ← svBoxChild (str "min") c
    let rest ← svBoxMins cs
    pure (x :: rest)

/-- The second loop of `GeoArrowParseBox`, src/geoarrow/schema_view.c:224-241 -/
def svBoxMaxs : List Byte → List ASchema → M SView Unit
  | x :: xs, c :: cs => do
    let y ← svBoxChild (str "max") c
    if y ≠ x then M.fail EINVAL else svBoxMaxs xs cs
  | _, _ => pure ()

/-- `GeoArrowParseBox`, src/geoarrow/schema_view.c:173-245 -/
def svBox (s : ASchema) : M SView Unit := do
  let isStruct ← svFormatIs s (str "+s")
  if !isStruct then M.fail EINVAL
  else if s.children.length ≠ 4 ∧ s.children.length ≠ 6 ∧ s.children.length ≠ 8 then M.fail EINVAL
  else do
    let dims ← svBoxMins (s.children.take (s.children.length / 2))
    match svDimsOf dims with
    | none => M.fail EINVAL
    | some d => do
      M.modify fun v => { v with dimensions := d }
      svBoxMaxs dims (s.children.drop (s.children.length / 2))
      M.modify fun v => { v with coordType := 1 }

/-- The branches for native types, src/geoarrow/schema_view.c:253-295: geometry type, then storage, then the identifier. -/
def svNative (g : Int) (parse : M SView Unit) : M SView Unit := do
  M.modify fun v => { v with geometryType := g }
  parse
  M.modify fun v => { v with type := makeType v.geometryType v.dimensions v.coordType }

/-- The branches for serialized types, src/geoarrow/schema_view.c:296-335 -/
def svSerialized (type : Option TypeId) : M SView Unit :=
  match type with
  | none => M.fail EINVAL
  | some t => M.modify fun v => { v with type := t, geometryType := geometryTypeFromType t, dimensions := dimensionsFromType t,
                                         coordType := coordTypeFromType t }

/-- The type of a text column, src/geoarrow/schema_view.c:297-312 -/
def svWktType : NaType → Option TypeId
  | .string => some 100003
  | .largeString => some 100004
  | .stringView => some 100006
  | _ => none

/-- The type of a binary column, src/geoarrow/schema_view.c:318-333 -/
def svWkbType : NaType → Option TypeId
  | .binary => some 100001
  | .largeBinary => some 100002
  | .binaryView => some 100005
  | _ => none

/-- The choice by extension name in `GeoArrowSchemaViewInitInternal`, src/geoarrow/schema_view.c:253-341. Only the last
comparison is with a prefix of the name. -/
def svByName (s : ASchema) (na : NaView) (ext : List Byte) : M SView Unit :=
  if ext = str "geoarrow.box" then svNative GT.box (svBox s)
  else if ext = str "geoarrow.point" then svNative GT.point (svNested 0 s)
  else if ext = str "geoarrow.linestring" then svNative GT.linestring (svNested 1 s)
  else if ext = str "geoarrow.polygon" then svNative GT.polygon (svNested 2 s)
  else if ext = str "geoarrow.multipoint" then svNative GT.multipoint (svNested 1 s)
  else if ext = str "geoarrow.multilinestring" then svNative GT.multilinestring (svNested 2 s)
  else if ext = str "geoarrow.multipolygon" then svNative GT.multipolygon (svNested 3 s)
  else if ext = str "geoarrow.wkt" then svSerialized (svWktType na.type)
  else if ext.take 12 = str "geoarrow.wkb" then svSerialized (svWkbType na.type)
  else M.fail EINVAL

/-- `GeoArrowSchemaViewInitInternal`, src/geoarrow/schema_view.c:247-349 -/
def svInternal (s : ASchema) (na : NaView) (ext : List Byte) : M SView Unit := do
  svByName s na ext
  M.modify fun v => { v with extName := some ext, extMetadata := na.extMetadata }

/-- `GeoArrowSchemaViewInit`, src/geoarrow/schema_view.c:351-365 -/
def schemaViewInit (s : ASchema) : M SView Unit := do
  let na ← svNa s
  match na.extName with
  | none => M.fail EINVAL
  | some ext => svInternal s na ext

/-- `GeoArrowSchemaViewInitFromStorage`, src/geoarrow/schema_view.c:367-376 -/
def schemaViewInitFromStorage (s : ASchema) (ext : List Byte) : M SView Unit := do
  let na ← svNa s
  svInternal s na ext

/-- `GeoArrowSchemaViewInitFromType`, src/geoarrow/schema_view.c:378-403 -/
def schemaViewInitFromType (type : TypeId) : M SView Unit := do
  M.modify fun _ => { extName := none, extMetadata := none, type := type, geometryType := geometryTypeFromType type,
                      dimensions := dimensionsFromType type, coordType := coordTypeFromType type }
  if type = 0 then pure ()
  else
    match extensionNameFromType type with
    | none => M.fail EINVAL
    | some n => M.modify fun v => { v with extName := some (str n) }

/-! ## `schema.c` -/

/-- `ArrowSchemaInitFromType` for types without children, src/vendor/nanoarrow/nanoarrow.c:746-797 -/
def schemaPlain (format : List Byte) : ASchema := .mk (some format) none [] 2 [] false

/-- A required child of doubles with a name, src/geoarrow/schema.c:15-19, 33-37, 55-66 -/
def schemaDouble (name : List Byte) : ASchema := ((schemaPlain (str "g")).setName name).setRequired

/-- `GeoArrowSchemaInitCoordFixedSizeList`, src/geoarrow/schema.c:9-22; `snprintf("+w:%d")` gives one digit here. -/
def schemaFixedSizeList (dims : List Byte) : ASchema :=
  .mk (some (str "+w:" ++ [48 + BitVec.ofNat 8 dims.length])) none [] 2 [schemaDouble dims] false

/-- `GeoArrowSchemaInitCoordStruct`, src/geoarrow/schema.c:24-42 -/
def schemaStruct (dims : List Byte) : ASchema :=
  .mk (some (str "+s")) none [] 2 (dims.map fun c => schemaDouble [c]) false

/-- `GeoArrowSchemaInitRect`, src/geoarrow/schema.c:44-71 -/
def schemaRect (dims : List Byte) : ASchema :=
  .mk (some (str "+s")) none [] 2
    ((dims.map fun c => schemaDouble (c :: str "min")) ++ dims.map fun c => schemaDouble (c :: str "max")) false

/-- `GeoArrowSchemaInitListOf`, src/geoarrow/schema.c:73-99: as deep as there are child names. -/
def schemaListOf (coordType : Int) (dims : List Byte) : List (List Byte) → Except Code ASchema
  | [] =>
    if coordType = 1 then .ok (schemaStruct dims)
    else if coordType = 2 then .ok (schemaFixedSizeList dims)
    else .error EINVAL
  | n :: ns =>
    match schemaListOf coordType dims ns with
    | .error rc => .error rc
    | .ok child => .ok (.mk (some (str "+l")) none [] 2 [(child.setName n).setRequired] false)

/-- The names of dimensions, src/geoarrow/schema.c:136-150 -/
def schemaDims (dimensions : Int) : Option (List Byte) :=
  if dimensions = 1 then some (str "xy")
  else if dimensions = 2 then some (str "xyz")
  else if dimensions = 3 then some (str "xym")
  else if dimensions = 4 then some (str "xyzm")
  else none

/-- The switch on the geometry type, src/geoarrow/schema.c:152-203 -/
def schemaNative (g coordType : Int) (dims : List Byte) : Except Code ASchema :=
  if g = GT.box then (if coordType = 1 then .ok (schemaRect dims) else .error EINVAL)
  else if g = GT.point then schemaListOf coordType dims []
  else if g = GT.linestring then schemaListOf coordType dims [str "vertices"]
  else if g = GT.multipoint then schemaListOf coordType dims [str "points"]
  else if g = GT.polygon then schemaListOf coordType dims [str "rings", str "vertices"]
  else if g = GT.multilinestring then schemaListOf coordType dims [str "linestrings", str "vertices"]
  else if g = GT.multipolygon then schemaListOf coordType dims [str "polygons", str "rings", str "vertices"]
  else .error ENOTSUP

/-- `GeoArrowSchemaInit`, src/geoarrow/schema.c:112-206 -/
def schemaInit (type : TypeId) : Except Code ASchema :=
  if type = 100001 then .ok (schemaPlain (str "z"))
  else if type = 100002 then .ok (schemaPlain (str "Z"))
  else if type = 100005 then .ok (schemaPlain (str "vz"))
  else if type = 100003 then .ok (schemaPlain (str "u"))
  else if type = 100004 then .ok (schemaPlain (str "U"))
  else if type = 100006 then .ok (schemaPlain (str "vu"))
  else
    match schemaDims (dimensionsFromType type) with
    | none => .error EINVAL
    | some dims => schemaNative (geometryTypeFromType type) (coordTypeFromType type) dims

/-- `GeoArrowSchemaInitExtension`, src/geoarrow/schema.c:208-240 -/
def schemaInitExtension (type : TypeId) : Except Code ASchema :=
  match extensionNameFromType type with
  | none => .error EINVAL
  | some n =>
    match schemaInit type with
    | .error rc => .error rc
    | .ok s => .ok (s.setMetadata [(str "ARROW:extension:name", str n), (str "ARROW:extension:metadata", str "{}")])

end Verif
