import Verif.Model.ArrayWriter
/-!
# Builders and writers initialised from a schema
-/
namespace Verif

/-- `GeoArrowBuilderInitFromSchema`, src/geoarrow/builder.c:124-131; `none` is undefined behaviour. -/
def builderInitFromSchema (schema : ASchema) : Option (Except Code Builder) :=
  match schemaViewInit schema { extName := none, extMetadata := none, type := 0, geometryType := 0, dimensions := 0, coordType := 0 } with
  | .ok _ s => some (builderInitInternal s)
  | .err rc _ => some (.error rc)
  | .ub => none

/-- `GeoArrowArrayWriterInitFromSchema`, src/geoarrow/array_writer.c:54-59; the view of the schema is not initialised. -/
def arrayWriterInitFromSchema (junk : Nat → Byte) (rawT : WktW) (rawB : WkbW) (rawS : SView) (schema : ASchema) : Option (Except Code AWriter) :=
  match schemaViewInit schema rawS with
  | .ok _ s => some (arrayWriterInit junk rawT rawB s.type)
  | .err rc _ => some (.error rc)
  | .ub => none

end Verif
