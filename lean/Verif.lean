import Verif.Audit
import Verif.Model.ArrayReader
import Verif.Model.ArrayView
import Verif.Model.ArrayWriter
import Verif.Model.ArrowArray
import Verif.Model.Basic
import Verif.Model.Bitmap
import Verif.Model.Builder
import Verif.Model.BuilderOom
import Verif.Model.Coords
import Verif.Model.CppArray
import Verif.Model.CppDataType
import Verif.Model.CppDispatch
import Verif.Model.CppExtType
import Verif.Model.CppInit
import Verif.Model.CppIter
import Verif.Model.CppReader
import Verif.Model.CppWkbArray
import Verif.Model.CppWriter
import Verif.Model.ErrorText
import Verif.Model.FastFloat
import Verif.Model.FastFloatTable
import Verif.Model.FromSchema
import Verif.Model.GeomBuilder
import Verif.Model.GeomNodes
import Verif.Model.Geometry
import Verif.Model.Kernel
import Verif.Model.KernelApi
import Verif.Model.KernelLife
import Verif.Model.Metadata
import Verif.Model.NativeWriter
import Verif.Model.Ownership
import Verif.Model.Ryu
import Verif.Model.RyuTable
import Verif.Model.ScalarUdf
import Verif.Model.Schema
import Verif.Model.StdNumbers
import Verif.Model.TypeInline
import Verif.Model.Visitor
import Verif.Model.WkbOom
import Verif.Model.WkbOomAppend
import Verif.Model.WkbParser
import Verif.Model.WkbReader
import Verif.Model.WkbWriter
import Verif.Model.WktError
import Verif.Model.WktOom
import Verif.Model.WktReader
import Verif.Model.WktWriter
import Verif.Proof.ArrayReader
import Verif.Proof.ArrayView
import Verif.Proof.ArrayWriter
import Verif.Proof.Batch
import Verif.Proof.BinArray
import Verif.Proof.Bitmap
import Verif.Proof.Builder
import Verif.Proof.BuilderCoords
import Verif.Proof.BuilderFind
import Verif.Proof.BuilderFinish
import Verif.Proof.BuilderHistory
import Verif.Proof.BuilderOom
import Verif.Proof.BuilderOomCoords
import Verif.Proof.BuilderOomCoordsAppend
import Verif.Proof.BuilderOomCoordsRun
import Verif.Proof.BuilderOomHeap
import Verif.Proof.BuilderOomRun
import Verif.Proof.BuilderRead
import Verif.Proof.BuilderValid
import Verif.Proof.Bytes
import Verif.Proof.Coords
import Verif.Proof.CoordsGeneric
import Verif.Proof.CppArray
import Verif.Proof.CppDataType
import Verif.Proof.CppInit
import Verif.Proof.CppReader
import Verif.Proof.CppWkbArray
import Verif.Proof.DblOrder
import Verif.Proof.DblParser
import Verif.Proof.DeepCopy
import Verif.Proof.ErrorText
import Verif.Proof.FFBig
import Verif.Proof.FFComp
import Verif.Proof.FFCompute
import Verif.Proof.FFDigits
import Verif.Proof.FFFloat
import Verif.Proof.FFMantissa
import Verif.Proof.FFNumber
import Verif.Proof.FFParse
import Verif.Proof.FFRound
import Verif.Proof.FFTable
import Verif.Proof.FormatWkt
import Verif.Proof.GeomBuilder
import Verif.Proof.GeomBuilderSafe
import Verif.Proof.GeomNodes
import Verif.Proof.Geometry
import Verif.Proof.Hoare
import Verif.Proof.IsoWkb
import Verif.Proof.KernelApi
import Verif.Proof.KernelBox
import Verif.Proof.KernelFinish
import Verif.Proof.KernelLife
import Verif.Proof.KernelLifeRun
import Verif.Proof.KernelPush
import Verif.Proof.KernelStart
import Verif.Proof.KernelTypes
import Verif.Proof.LayoutVisit
import Verif.Proof.Metadata
import Verif.Proof.MetadataJson
import Verif.Proof.MetadataScan
import Verif.Proof.MetadataText
import Verif.Proof.NativeAppend
import Verif.Proof.NativeAppendHistory
import Verif.Proof.NativeAppendStep
import Verif.Proof.NativeFinish
import Verif.Proof.NativeHistory
import Verif.Proof.NativeLine
import Verif.Proof.NativeMulti
import Verif.Proof.NativePoint
import Verif.Proof.NativePoly
import Verif.Proof.NativeRead
import Verif.Proof.NativeVisit
import Verif.Proof.NativeWriter
import Verif.Proof.Ownership
import Verif.Proof.OwnershipRun
import Verif.Proof.OwnershipStep
import Verif.Proof.PrintDouble
import Verif.Proof.PrintRound
import Verif.Proof.Program
import Verif.Proof.RyuDec
import Verif.Proof.RyuDecimal
import Verif.Proof.RyuExact
import Verif.Proof.RyuFixed
import Verif.Proof.RyuLoop
import Verif.Proof.RyuStart
import Verif.Proof.RyuTable
import Verif.Proof.RyuText
import Verif.Proof.Schema
import Verif.Proof.Sequence
import Verif.Proof.StdLibc
import Verif.Proof.StdNumbers
import Verif.Proof.Stores
import Verif.Proof.Visit
import Verif.Proof.VisitShape
import Verif.Proof.WkbAny
import Verif.Proof.WkbAppend
import Verif.Proof.WkbHistory
import Verif.Proof.WkbNesting
import Verif.Proof.WkbOom
import Verif.Proof.WkbOomAppend
import Verif.Proof.WkbOomRun
import Verif.Proof.WkbParser
import Verif.Proof.WkbParserCut
import Verif.Proof.WkbParserTree
import Verif.Proof.WkbParserVisit
import Verif.Proof.WkbReader
import Verif.Proof.WkbReaderTree
import Verif.Proof.WkbWriter
import Verif.Proof.WktComplete
import Verif.Proof.WktErrorAgree
import Verif.Proof.WktErrorLocal
import Verif.Proof.WktErrorPos
import Verif.Proof.WktErrorTop
import Verif.Proof.WktErrorViable
import Verif.Proof.WktGeom
import Verif.Proof.WktHistory
import Verif.Proof.WktLex
import Verif.Proof.WktNesting
import Verif.Proof.WktOom
import Verif.Proof.WktOomRun
import Verif.Proof.WktRefine
import Verif.Proof.WktRefineAll
import Verif.Proof.WktRound
import Verif.Proof.WktSound
import Verif.Proof.WktSpacing
import Verif.Proof.WktTokens
import Verif.Proof.WktWriter
import Verif.Props.ArrayReader
import Verif.Props.ArrayView
import Verif.Props.ArrayWriter
import Verif.Props.Bitmap
import Verif.Props.Builder
import Verif.Props.BuilderOom
import Verif.Props.BuilderOomCoords
import Verif.Props.Coords
import Verif.Props.CppArray
import Verif.Props.CppDataType
import Verif.Props.CppDispatch
import Verif.Props.CppExtType
import Verif.Props.CppInit
import Verif.Props.CppIter
import Verif.Props.CppReader
import Verif.Props.CppWkbArray
import Verif.Props.ErrorText
import Verif.Props.FromSchema
import Verif.Props.GeomBuilder
import Verif.Props.GeomNodes
import Verif.Props.Kernel
import Verif.Props.KernelApi
import Verif.Props.KernelLife
import Verif.Props.Metadata
import Verif.Props.NativeAppend
import Verif.Props.NativeWriter
import Verif.Props.Ownership
import Verif.Props.ParseDouble
import Verif.Props.PrintDouble
import Verif.Props.ScalarUdf
import Verif.Props.Schema
import Verif.Props.StdNumbers
import Verif.Props.Types
import Verif.Props.Visit
import Verif.Props.WkbBoth
import Verif.Props.WkbOom
import Verif.Props.WkbOomAppend
import Verif.Props.WkbParser
import Verif.Props.WkbReader
import Verif.Props.WkbWriter
import Verif.Props.WktError
import Verif.Props.WktOom
import Verif.Props.WktReader
import Verif.Props.WktWriter
import Verif.Props.WriterApi
import Verif.Spec.ArrayWriter
import Verif.Spec.Axes
import Verif.Spec.Batch
import Verif.Spec.BinArray
import Verif.Spec.Builder
import Verif.Spec.BuilderOom
import Verif.Spec.BuilderOomCoords
import Verif.Spec.Building
import Verif.Spec.CoordViews
import Verif.Spec.CppArray
import Verif.Spec.CppDataType
import Verif.Spec.CppExtType
import Verif.Spec.CppIter
import Verif.Spec.CppReader
import Verif.Spec.CppWkbArray
import Verif.Spec.Decimal
import Verif.Spec.ErrorText
import Verif.Spec.Geom
import Verif.Spec.GeomNodes
import Verif.Spec.Ieee
import Verif.Spec.Kernel
import Verif.Spec.KernelApi
import Verif.Spec.KernelLife
import Verif.Spec.Layout
import Verif.Spec.Metadata
import Verif.Spec.NativeAppend
import Verif.Spec.NativeArray
import Verif.Spec.NativeWriter
import Verif.Spec.Nesting
import Verif.Spec.Nodes
import Verif.Spec.Number
import Verif.Spec.Ownership
import Verif.Spec.Program
import Verif.Spec.ScalarUdf
import Verif.Spec.Schema
import Verif.Spec.SerializedArray
import Verif.Spec.StdNumbers
import Verif.Spec.TypeIds
import Verif.Spec.Wkb
import Verif.Spec.WkbBoth
import Verif.Spec.WkbOom
import Verif.Spec.WkbOomAppend
import Verif.Spec.WkbTokens
import Verif.Spec.Wkt
import Verif.Spec.WktError
import Verif.Spec.WktGrammar
import Verif.Spec.WktOom
