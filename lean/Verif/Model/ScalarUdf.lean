import Verif.Model.ErrorText
import Verif.Model.Schema
/-!
# Scalar functions: src/geoarrow/scalar_udf.c

A caller's structure is a record of function pointers; a function pointer is the name of the function, or something else the
caller left there. Calling something else is `none`.
-/
namespace Verif.Udf
open Verif

/-- What a function pointer may be. -/
inductive Fn where
  | null
  | newVoid
  | releaseFactory
  | initVoid
  | executeVoid
  | lastErrorVoid
  | releaseVoid
  | other (k : Nat)
  deriving DecidableEq, Repr

/-- `struct GeoArrowScalarUdfFactory`, src/geoarrow/geoarrow_type.h:926-941 -/
structure Factory where
  newImpl : Fn
  release : Fn
  privateData : Nat
  deriving DecidableEq, Repr

/-- `struct GeoArrowScalarUdf`, src/geoarrow/geoarrow_type.h:870-919 -/
structure Impl where
  init : Fn
  execute : Fn
  lastError : Fn
  release : Fn
  privateData : Nat
  deriving DecidableEq, Repr

/-- The format of the message, src/geoarrow/scalar_udf.c:24 -/
def unknownPieces (name : List Byte) : List Piece :=
  [.lit (str "GeoArrow C scalar implementation with name '"), .cstr name, .lit (str "' does not exist")]

/-- `GeoArrowScalarUdfFactoryInit`, src/geoarrow/scalar_udf.c:13-31; `name` up to its NUL. -/
def factoryInit (junk : List Byte) (out : Factory) (name : List Byte) (error : Option (List Byte)) :
    Code × Factory × Option (List Byte) :=
  if name.takeWhile (· ≠ 0) = str "void" then
    (0, { out with newImpl := .newVoid, privateData := 0, release := .releaseFactory }, error)
  else (ENOTSUP, out, (errorSet junk (unknownPieces name) error).2)

/-- `factory->new_scalar_udf_impl(factory, out)`: `GeoArrowScalarUdfVoidFactoryInit`, src/geoarrow/scalar_udf.c:72-79 -/
def Factory.new (f : Factory) (out : Impl) : Option Impl :=
  match f.newImpl with
  | .newVoid => some { out with init := .initVoid, execute := .executeVoid, lastError := .lastErrorVoid, release := .releaseVoid }
  | _ => none

/-- `factory->release(factory)`: `GeoArrowScalarUdfVoidFactoryRelease`, src/geoarrow/scalar_udf.c:9-11 -/
def Factory.callRelease (f : Factory) : Option Factory :=
  match f.release with
  | .releaseFactory => some f
  | _ => none

/-- `udf->init(udf, arg_types, scalar_args, n_args, out)`: `GeoArrowScalarUdfVoidInit`, src/geoarrow/scalar_udf.c:33-45, with
`ArrowSchemaInitFromType(out, NANOARROW_TYPE_NA)`, src/vendor/nanoarrow/nanoarrow.c:786-796, 632-633: the format is `n`, the type is
nullable. -/
def Impl.callInit (u : Impl) (_args : List ASchema) : Option (Code × ASchema) :=
  match u.init with
  | .initVoid => some (0, .mk (some (str "n")) none [] 2 [] false)
  | _ => none

/-- The part of `struct ArrowArray` that an array without buffers and children has. -/
structure NullArray where
  length : Int
  nullCount : Int
  offset : Int
  nBuffers : Int
  nChildren : Int
  released : Bool
  deriving DecidableEq, Repr

/-- `ArrowArrayFinishBuildingDefault` of an array of type `NANOARROW_TYPE_NA`: neither buffers nor children are looked at,
src/vendor/nanoarrow/nanoarrow.c:2753-2780, 2828-2859; what is left of the checks is 3144-3160. -/
def finishNull (a : NullArray) : Code :=
  if a.length < 0 then EINVAL
  else if a.offset < 0 then EINVAL
  else if 9223372036854775807 < a.offset + a.length then EINVAL
  else 0

/-- `udf->execute(udf, args, n_args, n_rows, out)`: `GeoArrowScalarUdfVoidExecute`, src/geoarrow/scalar_udf.c:47-61;
`ArrowArrayInitFromType`, src/vendor/nanoarrow/nanoarrow.c:2436-2500 -/
def Impl.callExecute (u : Impl) (_args : List NullArray) (nRows : Int) : Option (Code × NullArray) :=
  match u.execute with
  | .executeVoid =>
    let a : NullArray := { length := nRows, nullCount := nRows, offset := 0, nBuffers := 0, nChildren := 0, released := false }
    some (finishNull a, a)
  | _ => none

/-- `udf->get_last_error(udf)`: `GeoArrowScalarUdfVoidGetLastError`, src/geoarrow/scalar_udf.c:63-66; `some none` is `NULL`. -/
def Impl.callLastError (u : Impl) : Option (Option (List Byte)) :=
  match u.lastError with
  | .lastErrorVoid => some none
  | _ => none

/-- `udf->release(udf)`: `GeoArrowScalarUdfVoidRelease`, src/geoarrow/scalar_udf.c:68-70 -/
def Impl.callRelease (u : Impl) : Option Impl :=
  match u.release with
  | .releaseVoid => some u
  | _ => none

end Verif.Udf
