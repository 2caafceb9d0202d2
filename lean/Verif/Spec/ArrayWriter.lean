import Verif.Spec.Batch
import Verif.Spec.BinArray
import Verif.Spec.NativeWriter
import Verif.Spec.Schema
import Verif.Model.ArrayWriter
/-!
# Specification: converting arrays

Of the model, only the functions a client calls are used, to say which histories of calls there are.
-/
namespace Verif.Spec
open Verif

/-- The array in memory: packed validity bits (what follows the last one is anything), 32-bit offsets, data. A buffer without
data may be absent. -/
structure Stores (a : AArray) (b : BinArray) : Prop where
  length : a.length = b.length
  nullCount : a.nullCount = b.nullCount
  offset : a.offset = 0
  children : a.children = []
  buffers : ∃ v o d, a.buffers = [v, some o, d] ∧ (d = some b.data ∨ (d = none ∧ b.data = [])) ∧
    (∀ (i : Nat) (x : Int), b.offsets[i]? = some x → i32At o i = some x) ∧
    match b.validity with
    | none => v = none
    | some l => ∃ bits, v = some bits ∧ ∀ (i : Nat) (x : Bool), l[i]? = some x → bitGet bits i = some x

/-- Options in which the first value given for `key` is the 32-bit number `n`, written with at most 15 characters. -/
def HasNumber (options : List (List Byte × List Byte)) (key : List Byte) (n : Int) : Prop :=
  ∃ before text after, options = before ++ (key, text) :: after ∧ (∀ p ∈ before, p.1 ≠ key) ∧ NumberText text n ∧ text.length ≤ 15 ∧
    -2147483648 ≤ n ∧ n < 2147483648

/-! ## Array writers -/

/-- Array writers of a type on which no visitor has been initialised, with the precision and style of multipoints they were last
told, whether or not they accepted it. -/
inductive WriterOpened (type : Int) : (precision : Int) → (flat : Bool) → AWriter → Prop where
  | init {junk rawT rawB w} : arrayWriterInit junk rawT rawB type = .ok w → WriterOpened type 16 true w
  | setPrecision {p f w q w'} : WriterOpened type p f w → (arrayWriterSetPrecision q w).state? = some w' → WriterOpened type q f w'
  | setFlat {p f w b w'} : WriterOpened type p f w → (arrayWriterSetFlatMultipoint b w).state? = some w' → WriterOpened type p b w'

/-- Array writers for which the visitor `h` was initialised when they had this precision and style, used in any way since: options
set, callbacks and Finish called, successfully or not. -/
inductive WriterOf (print : Nat → Dbl → List Byte) (type precision : Int) (flat : Bool) : Handler AWriter → AWriter → Prop where
  | visitor {junk w h w'} : WriterOpened type precision flat w → arrayWriterInitVisitor junk print w = .ok h w' → WriterOf print type precision flat h w'
  | setPrecision {h w q w'} : WriterOf print type precision flat h w → (arrayWriterSetPrecision q w).state? = some w' →
      WriterOf print type precision flat h w'
  | setFlat {h w b w'} : WriterOf print type precision flat h w → (arrayWriterSetFlatMultipoint b w).state? = some w' →
      WriterOf print type precision flat h w'
  | event {h w e w'} : WriterOf print type precision flat h w → (h e w).state? = some w' → WriterOf print type precision flat h w'
  | finish {junk h w w'} : WriterOf print type precision flat h w → (arrayWriterFinish junk w).state? = some w' → WriterOf print type precision flat h w'

/-- Such writers before any callback, or right after a Finish that succeeded; options may have been set in between. -/
inductive WriterStart (print : Nat → Dbl → List Byte) (type precision : Int) (flat : Bool) : Handler AWriter → AWriter → Prop where
  | visitor {junk w h w'} : WriterOpened type precision flat w → arrayWriterInitVisitor junk print w = .ok h w' → WriterStart print type precision flat h w'
  | setPrecision {h w q w'} : WriterStart print type precision flat h w → (arrayWriterSetPrecision q w).state? = some w' →
      WriterStart print type precision flat h w'
  | setFlat {h w b w'} : WriterStart print type precision flat h w → (arrayWriterSetFlatMultipoint b w).state? = some w' →
      WriterStart print type precision flat h w'
  | finish {junk h w out w'} : WriterOf print type precision flat h w → arrayWriterFinish junk w = .ok out w' → WriterStart print type precision flat h w'

/-! ## as_geoarrow -/

/-- `as_geoarrow` kernels started for input of type `inType`, to produce arrays of type `outType`, and used in any way since,
failed pushes included; `h` is the visitor they were given. -/
inductive AsKernelOf (parse : List Byte → Option Dbl) (print : Nat → Dbl → List Byte) (inType outType : Int) :
    Handler AWriter → Kernel AWriter → Prop where
  | start {junk rawT rawB options h w r} : HasNumber options (str "type") outType →
      asGeoarrowStart junk print rawT rawB options none = some (.ok (h, w)) → ReaderOf inType r → AsKernelOf parse print inType outType h ⟨r, w⟩
  | push {junk scratch a h k k'} : AsKernelOf parse print inType outType h k → (asGeoarrowPush h junk parse scratch a k).state? = some k' →
      AsKernelOf parse print inType outType h k'

/-- Such kernels that were just started, or whose last push succeeded. -/
inductive AsKernelStart (parse : List Byte → Option Dbl) (print : Nat → Dbl → List Byte) (inType outType : Int) :
    Handler AWriter → Kernel AWriter → Prop where
  | start {junk rawT rawB options h w r} : HasNumber options (str "type") outType →
      asGeoarrowStart junk print rawT rawB options none = some (.ok (h, w)) → ReaderOf inType r → AsKernelStart parse print inType outType h ⟨r, w⟩
  | push {junk scratch a h k out k'} : AsKernelOf parse print inType outType h k → asGeoarrowPush h junk parse scratch a k = .ok out k' →
      AsKernelStart parse print inType outType h k'

/-! ## format_wkt -/

/-- The value of an option: a number that is given, or the default. -/
inductive OptionIs (options : List (List Byte × List Byte)) (key : List Byte) (default : Int) : Int → Prop where
  | absent : (∀ p ∈ options, p.1 ≠ key) → OptionIs options key default default
  | given {n} : HasNumber options key n → OptionIs options key default n

/-- `format_wkt` kernels started for input of type `inType` with a precision and a size limit, and used in any way since, failed
pushes included. -/
inductive FwKernelOf (parse : List Byte → Option Dbl) (print : Nat → Dbl → List Byte) (inType : Int) (precision max : Int) :
    Kernel WktW → Prop where
  | start {raw options r} : OptionIs options (str "precision") 16 precision → OptionIs options (str "max_element_size_bytes") (-1) max →
      ReaderOf inType r → FwKernelOf parse print inType precision max ⟨r, (formatWktStart options (wktWriterInit raw)).priv⟩
  | push {scratch a k k'} : FwKernelOf parse print inType precision max k → (formatWktPush print parse scratch a k).state? = some k' →
      FwKernelOf parse print inType precision max k'

/-- Such kernels that were just started, or whose last push succeeded. -/
inductive FwKernelStart (parse : List Byte → Option Dbl) (print : Nat → Dbl → List Byte) (inType : Int) (precision max : Int) :
    Kernel WktW → Prop where
  | start {raw options r} : OptionIs options (str "precision") 16 precision → OptionIs options (str "max_element_size_bytes") (-1) max →
      ReaderOf inType r → FwKernelStart parse print inType precision max ⟨r, (formatWktStart options (wktWriterInit raw)).priv⟩
  | push {scratch a k out k'} : FwKernelOf parse print inType precision max k → formatWktPush print parse scratch a k = .ok out k' →
      FwKernelStart parse print inType precision max k'

end Verif.Spec
