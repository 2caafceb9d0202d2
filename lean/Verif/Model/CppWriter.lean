import Verif.Model.ArrayWriter
/-!
# `hpp/array_writer.hpp`: the class `ArrayWriter`

An exception thrown by `GEOARROW_THROW_NOT_OK` is the error outcome.
-/
namespace Verif

/-- `class ArrayWriter`, src/geoarrow/hpp/array_writer.hpp:88-128; `visitor` is `none` while `visitor_.coords` is null. -/
structure CppWriter where
  writer : AWriter
  visitor : Option (Handler AWriter)

/-- `ArrayWriter(GeoArrowType)`, src/geoarrow/hpp/array_writer.hpp:90-92 -/
def cppWriterNew (junk : Nat → Byte) (rawT : WktW) (rawB : WkbW) (type : TypeId) : Except Code CppWriter :=
  match arrayWriterInit junk rawT rawB type with
  | .error rc => .error rc
  | .ok w => .ok ⟨w, none⟩

/-- A call of the C API on the member `writer_`. -/
def onWriter {α : Type} (m : M AWriter α) : M CppWriter α := fun c =>
  match m c.writer with
  | .ok a w => .ok a { c with writer := w }
  | .err rc w => .err rc { c with writer := w }
  | .ub => .ub

/-- `ArrayWriter::SetPrecision`, src/geoarrow/hpp/array_writer.hpp:104-106 -/
def cppSetPrecision (precision : Int) : M CppWriter Unit := onWriter (arrayWriterSetPrecision precision)

/-- `ArrayWriter::SetFlatMultipoint`, src/geoarrow/hpp/array_writer.hpp:108-111: it calls the function that sets the precision, with
the truth value converted to `int`. -/
def cppSetFlatMultipoint (flat : Bool) : M CppWriter Unit := onWriter (arrayWriterSetPrecision (if flat then 1 else 0))

/-- `ArrayWriter::visitor`, src/geoarrow/hpp/array_writer.hpp:113-119 -/
def cppVisitor (junk : Nat → Byte) (print : Nat → Dbl → List Byte) : M CppWriter (Handler AWriter) := fun c =>
  match c.visitor with
  | some h => .ok h c
  | none =>
    match arrayWriterInitVisitor junk print c.writer with
    | .ok h w => .ok h ⟨w, some h⟩
    | .err rc w => .err rc ⟨w, none⟩
    | .ub => .ub

/-- `ArrayWriter::Finish`, src/geoarrow/hpp/array_writer.hpp:121-124 -/
def cppWriterFinish (junk : Nat → Byte) : M CppWriter AOut := onWriter (arrayWriterFinish junk)

end Verif
