{"id": "C01", "title": "Byte swapping reverses bytes and is an involution", "statement": "Swapping a 32-bit or 64-bit word yields the word whose in-memory bytes are the reverse of the original's, and swapping twice gives the original word back.", "quantifier": "every 32-bit and every 64-bit word", "why_tests_cant": "2^64 inputs; tests sample a handful of constants.", "anchors": ["src/geoarrow/geoarrow_type_inline.h: BSwap32, BSwap64"]}
{"id": "C02", "title": "Type identifiers decompose and recompose without loss", "statement": "Splitting any supported native type identifier into geometry type, dimensions and coordinate type and making a type from the three parts returns the same identifier; conversely a type made from parts reports exactly those parts, and two different part triples never give the same identifier.", "quantifier": "every type identifier and every (geometry type, dimensions, coordinate type) triple accepted by GeoArrowMakeType", "why_tests_cant": "the converse and injectivity range over arbitrary integers passed as enum values, not only the enumerators tests list.", "anchors": ["src/geoarrow/geoarrow_type_inline.h: GeoArrowMakeType, GeoArrowGeometryTypeFromType, GeoArrowDimensionsFromType, GeoArrowCoordTypeFromType"]}
{"id": "C03", "title": "A schema created for a type is recognised as that type", "statement": "Creating an extension schema for a type and viewing that schema reports the same type, geometry type, dimensions and coordinate type, and the extension name of the type.", "quantifier": "every type for which GeoArrowSchemaInitExtension succeeds", "why_tests_cant": "must hold for the whole type table including every dimension/coordinate combination and nesting level.", "anchors": ["src/geoarrow/schema.c: GeoArrowSchemaInit, GeoArrowSchemaInitExtension", "src/geoarrow/schema_view.c: GeoArrowSchemaViewInit"]}
{"id": "C04", "title": "Accepted schemas have exactly the storage layout of the reported type", "statement": "If viewing a schema succeeds with a native type, the storage is lists nested to exactly the depth the type requires, ending in a struct or fixed-size list of doubles whose names/size are those of the reported dimensions.", "quantifier": "every schema tree (any depth, names, formats)", "why_tests_cant": "the space of schemas is unbounded; a wrongly accepted schema leads to out-of-bounds reads later.", "anchors": ["src/geoarrow/schema_view.c: GeoArrowParseNestedSchema, GeoArrowParsePointStruct, GeoArrowParsePointFixedSizeList, GeoArrowParseBox"]}
{"id": "C05", "title": "Dimension mapping copies like-named dimensions and fills the rest with NaN", "statement": "Copying coordinates between dimension sets puts X in X, Y in Y, Z in Z and M in M, fills destination dimensions absent from the source with NaN, and never touches coordinates outside the requested destination range.", "quantifier": "every pair of dimension sets, every source and destination view, offset and length", "why_tests_cant": "16 dimension pairs times arbitrary views; order-of-dimension bugs (Z/M swap) only show on specific pairs.", "anchors": ["src/geoarrow/geoarrow_type_inline.h: GeoArrowMapDimensions, GeoArrowCoordViewCopy"]}
{"id": "C06", "title": "Serialising a node's coordinates is exact and bounded", "statement": "Writing a coordinate sequence of a geometry node to a caller buffer reports the number of bytes required, writes nothing if the buffer is smaller, and otherwise writes exactly the coordinates in interleaved order in native byte order, whatever the node's strides and byte order.", "quantifier": "every node (size, dimensions, strides, byte order), memory and buffer size", "why_tests_cant": "strides, sizes and alignments are unbounded; size arithmetic only wraps on very large sizes.", "anchors": ["src/geoarrow/geoarrow_type_inline.h: GeoArrowGeometryNodeWriteSequence"]}
{"id": "C07", "title": "Generic coordinate extraction from a geometry view", "statement": "Copying coordinates out of a geometry view into given strides and a given dimension set yields every coordinate of every point/linestring node in order, with dimensions mapped by name and NaN where the source has no such dimension, whatever the byte order of the source.", "quantifier": "every geometry view, source dimensions, destination dimensions and byte order", "why_tests_cant": "byte order x dimension-mapping combinations over unbounded views.", "anchors": ["src/geoarrow/geoarrow_type_inline.h: GeoArrowGeometryViewCopyCoordsGeneric"]}
{"id": "C08", "title": "Chunked sequence visiting loses and duplicates nothing", "statement": "Visiting a coordinate sequence calls the coordinates callback one or more times such that the concatenation of all delivered coordinates is the full sequence in order, each delivered chunk fits the library's internal buffer.", "quantifier": "every sequence length, dimension count, stride and byte order", "why_tests_cant": "chunk boundary errors show only at particular lengths modulo the chunk size.", "anchors": ["src/geoarrow/geometry.c: GeoArrowGeometryVisitSequence"]}
{"id": "C09", "title": "Visiting a geometry produces its exact well-bracketed traversal", "statement": "Visiting a well-formed geometry view calls feature start, then for every geometry in depth-first order geometry start/rings/coordinates/geometry end with its type and dimensions, then feature end, and succeeds consuming every node.", "quantifier": "every geometry tree of any depth and width", "why_tests_cant": "trees are unbounded; off-by-one node consumption appears only for particular nestings.", "anchors": ["src/geoarrow/geometry.c: GeoArrowGeometryVisitNode, GeoArrowGeometryViewVisit"]}
{"id": "C10", "title": "Visiting an inconsistent node array fails cleanly", "statement": "Visiting a geometry view whose node array does not describe exactly one geometry returns an error without reading outside the node array.", "quantifier": "every node array", "why_tests_cant": "malformed arrays form an unbounded space, and an out-of-bounds read need not crash a test.", "anchors": ["src/geoarrow/geometry.c: GeoArrowGeometryVisitNode, GeoArrowGeometryViewVisit"]}
{"id": "C11", "title": "A visitor error stops the reader immediately and is returned verbatim", "statement": "If a callback of the visitor returns a non-zero code, the reader makes no further callback and returns exactly that code; if all callbacks succeed the reader's callbacks do not depend on the visitor.", "quantifier": "every reader input, every visitor and every state of it, every position of the failing callback", "why_tests_cant": "ranges over all visitors, all failing positions and all inputs; the EAGAIN protocol relies on it.", "anchors": ["src/geoarrow/geoarrow_type.h: GeoArrowVisitor", "src/geoarrow/geometry.c: GeoArrowGeometryVisitNode", "src/geoarrow/wkt_reader.c", "src/geoarrow/array_view.c"]}
{"id": "C12", "title": "Valid well-known binary is read exactly", "statement": "Reading a valid WKB encoding (ISO or EWKB with or without SRID, each part in either byte order, nesting within the level limit, trailing bytes allowed) succeeds and visiting the result delivers exactly the encoded geometry, bit for bit.", "quantifier": "every geometry tree and every mixture of byte orders and encodings", "why_tests_cant": "the encoding space is unbounded; per-part byte-order mixing is never enumerated by tests.", "anchors": ["src/geoarrow/wkb_reader.c: GeoArrowWKBReaderRead, GeoArrowWKBReaderVisit"]}
{"id": "C13", "title": "Reading well-known binary never reads outside the supplied bytes", "statement": "For arbitrary input bytes the WKB reader and the visit of its result access only bytes inside the supplied buffer.", "quantifier": "every byte string", "why_tests_cant": "memory safety on hostile input is a for-all; reads a few bytes past the end rarely crash.", "anchors": ["src/geoarrow/wkb_reader.c: WKBReaderReadUInt32, WKBReaderReadNodeCoordinates, WKBReaderReadNodeGeometry"]}
{"id": "C14", "title": "Whatever the WKB reader accepts is a well-formed geometry", "statement": "If reading arbitrary bytes succeeds, the resulting geometry view is one well-formed tree: visiting it never reports too few or too many nodes and every level is parent level plus one.", "quantifier": "every byte string for which reading succeeds", "why_tests_cant": "inputs are arbitrary; consistency between sizes and nodes must hold for all of them.", "anchors": ["src/geoarrow/wkb_reader.c: WKBReaderReadNodeGeometry, GeoArrowWKBReaderRead"]}
{"id": "C15", "title": "The C++ WKB parser never reads outside the supplied bytes", "statement": "For arbitrary bytes the C++ WKB parser reads only inside the blob, and every coordinate sequence it reports lies entirely inside the blob; remaining-byte accounting never underflows.", "quantifier": "every byte string", "why_tests_cant": "memory safety on hostile input is a for-all.", "anchors": ["src/geoarrow/hpp/wkb_util.hpp: WKBParser::Parse, ParseGeometry, ParseSequence, ParsePolygon, ParseCollection"]}
{"id": "C16", "title": "The C++ WKB parser decodes every valid encoding and reports trailing bytes", "statement": "Parsing a valid encoding returns OK and the encoded geometry; parsing it with extra bytes appended returns TOO_MANY_BYTES; parsing any strict prefix of it returns TOO_FEW_BYTES.", "quantifier": "every geometry tree, every encoding of it, every strict prefix and every suffix", "why_tests_cant": "all prefixes of all encodings of all trees cannot be enumerated.", "anchors": ["src/geoarrow/hpp/wkb_util.hpp: WKBParser::Parse"]}
{"id": "C17", "title": "The WKB writer visitor emits ISO WKB", "statement": "Feeding the callbacks of a geometry to the WKB writer appends exactly the ISO WKB encoding of that geometry in the writer's byte order, with empty points as NaN coordinates, independent of how coordinates are split over callbacks.", "quantifier": "every geometry tree within the nesting limit, every chunking of its coordinate callbacks", "why_tests_cant": "sizes are patched in place after the fact; errors depend on nesting and on chunk boundaries.", "anchors": ["src/geoarrow/wkb_writer.c: feat_start_wkb, geom_start_wkb, ring_start_wkb, coords_wkb, ring_end_wkb, geom_end_wkb, feat_end_wkb"]}
{"id": "C18", "title": "Appending a geometry view to the WKB writer equals visiting it", "statement": "GeoArrowWKBWriterAppend of a well-formed geometry view appends the same element bytes as feeding its callbacks to the writer's visitor (for geometries without empty points) whatever the view's strides and byte order.", "quantifier": "every well-formed geometry view within the nesting limit", "why_tests_cant": "two independent encoders must agree on an unbounded input space.", "anchors": ["src/geoarrow/wkb_writer.c: GeoArrowWKBWriterAppend, WKBWriterAppendBuffer, WKBWriterAppendSequence"]}
{"id": "C19", "title": "WKB write/read round trip is lossless", "statement": "Writing any geometry to WKB and reading it back delivers the same callbacks with bit-identical ordinates, up to empty points becoming points with all-NaN coordinates.", "quantifier": "every geometry tree within the nesting limit, every ordinate bit pattern", "why_tests_cant": "unbounded trees and 2^64 bit patterns (NaN payloads, -0).", "anchors": ["src/geoarrow/wkb_writer.c", "src/geoarrow/wkb_reader.c"]}
{"id": "C20", "title": "The array finished by the WKB writer always matches the history of appends", "statement": "After any sequence of features and nulls, finishing gives an array whose length is the number of features, whose offsets start at 0, never decrease and end at the data length, whose i-th element is the encoding of the i-th feature (empty if null), whose validity bit i is 0 exactly for nulls and whose null count is the number of nulls.", "quantifier": "every history of features and nulls, in any order", "why_tests_cant": "histories are unbounded; the validity bitmap is allocated lazily at the first null so bugs depend on its position.", "anchors": ["src/geoarrow/wkb_writer.c: GeoArrowWKBWriterFinish, feat_end_wkb, GeoArrowWKBWriterAppendNull"]}
{"id": "C21", "title": "A writer can be reused after finishing", "statement": "After Finish, a further sequence of appends and Finish produces the same array as a newly initialised writer would.", "quantifier": "every pair of histories before and after Finish", "why_tests_cant": "state leaking from one batch into the next depends on the full earlier history.", "anchors": ["src/geoarrow/wkb_writer.c: GeoArrowWKBWriterFinish", "src/geoarrow/wkt_writer.c: GeoArrowWKTWriterFinish", "src/geoarrow/native_writer.c: GeoArrowNativeWriterFinish"]}
{"id": "C22", "title": "Writers do not crash on callbacks in unexpected order", "statement": "For any sequence of visitor callbacks, in any order, the WKB and WKT writers only access their own fixed-size level tables and the bytes they have written.", "quantifier": "every finite sequence of callbacks with arbitrary arguments", "why_tests_cant": "all callback interleavings is an infinite set; the header documents this guarantee.", "anchors": ["src/geoarrow/geoarrow_type.h: GeoArrowVisitor", "src/geoarrow/wkb_writer.c: WKBWriterCheckLevel", "src/geoarrow/wkt_writer.c: WKTWriterCheckLevel"]}
{"id": "C23", "title": "The WKT writer emits well-formed WKT for every geometry", "statement": "Feeding the callbacks of a geometry to the WKT writer appends exactly its well-known text: tag, dimension suffix, EMPTY or parenthesised comma-separated content, nested members tagged only inside collections, whatever the chunking of coordinates.", "quantifier": "every geometry tree within the nesting limit, every chunking, flat or nested multipoint option", "why_tests_cant": "separators and parentheses depend on per-level counters over unbounded nestings.", "anchors": ["src/geoarrow/wkt_writer.c: geom_start_wkt, ring_start_wkt, coords_wkt, ring_end_wkt, geom_end_wkt"]}
{"id": "C24", "title": "WKT element truncation yields a prefix within the limit", "statement": "With a maximum element size set, each written element is the untruncated text cut to at most that many bytes, and the writer asks the reader to stop early only when the limit has been reached.", "quantifier": "every geometry, every limit, every history of features and nulls", "why_tests_cant": "depends on limit, feature text and earlier history (null handling).", "anchors": ["src/geoarrow/wkt_writer.c: coords_wkt, feat_end_wkt", "src/geoarrow/kernel.c: kernel_push_batch_by_feature"]}
{"id": "C25", "title": "The array finished by the WKT writer always matches the history of appends", "statement": "After any sequence of features and nulls, finishing gives an array with one element per feature, monotone offsets from 0 to the data length, element i the text of feature i, validity bit i clear exactly for nulls and the right null count.", "quantifier": "every history of features and nulls", "why_tests_cant": "histories are unbounded; lazily allocated validity.", "anchors": ["src/geoarrow/wkt_writer.c: feat_start_wkt, null_feat_wkt, feat_end_wkt, GeoArrowWKTWriterFinish"]}
{"id": "C26", "title": "Reading WKT never reads outside the supplied text and always terminates", "statement": "For arbitrary input text the WKT reader accesses only the supplied bytes and returns after finitely many steps.", "quantifier": "every byte string, every visitor", "why_tests_cant": "hostile input; the reader moves its cursor backwards in one place.", "anchors": ["src/geoarrow/wkt_reader.c: GeoArrowWKTReaderVisit and helpers"]}
{"id": "C27", "title": "WKT write/read round trip", "statement": "Reading back the text written for a geometry delivers the same geometry, provided numbers survive printing and parsing.", "quantifier": "every geometry tree, every number formatter/parser pair that round-trips on the numbers used", "why_tests_cant": "unbounded trees; interaction of EMPTY, separators and flat multipoints.", "anchors": ["src/geoarrow/wkt_writer.c", "src/geoarrow/wkt_reader.c: ReadTaggedGeometry"]}
{"id": "C28", "title": "Successful WKT reads deliver a well-bracketed feature", "statement": "If reading arbitrary text succeeds, the callbacks made are exactly one feature whose geometry starts/ends and ring starts/ends nest properly and whose coordinates have the announced number of ordinates; if it fails, the callbacks made are a prefix of such a sequence.", "quantifier": "every input text", "why_tests_cant": "inputs are arbitrary text.", "anchors": ["src/geoarrow/wkt_reader.c"]}
{"id": "C29", "title": "WKT reading is insensitive to extra whitespace", "statement": "Inserting spaces, tabs or newlines next to parentheses or commas does not change whether text is accepted nor what is delivered.", "quantifier": "every text and every insertion position adjacent to punctuation", "why_tests_cant": "combinations of positions and constructs are unbounded.", "anchors": ["src/geoarrow/wkt_reader.c: SkipWhitespace, ReadMultipointFlat, ReadMultipoint"]}
{"id": "C30", "title": "Building a geometry from callbacks preserves it", "statement": "Feeding the callbacks of a geometry into a GeoArrowGeometry and visiting that geometry delivers the same callbacks (up to chunking).", "quantifier": "every geometry tree within the nesting limit, including empties at any position", "why_tests_cant": "pointer fix-up happens at feature end over the whole tree; empties at particular positions matter.", "anchors": ["src/geoarrow/geometry.c: GeoArrowGeometryInitVisitor, feat_end_geometry, geom_end_geometry"]}
{"id": "C31", "title": "A deep copy denotes the same geometry", "statement": "After GeoArrowGeometryDeepCopy the copy is visited with the same callbacks as the source view and owns its coordinates.", "quantifier": "every geometry view in either byte order", "why_tests_cant": "byte-order flag handling and buffer offsets across unbounded trees.", "anchors": ["src/geoarrow/geometry.c: GeoArrowGeometryDeepCopy"]}
{"id": "C32", "title": "Builder buffers hold exactly what was appended", "statement": "After any sequence of reserve/append operations on a builder, each buffer's contents are the concatenation of the appended data, size never exceeds capacity, and unsafe appends after a successful check stay within capacity.", "quantifier": "every sequence of builder operations on every buffer index", "why_tests_cant": "histories are unbounded; capacity bookkeeping errors are silent heap overflows.", "anchors": ["src/geoarrow/geoarrow_type_inline.h: GeoArrowBuilderAppendBuffer, GeoArrowBuilderCoordsReserve, GeoArrowBuilderCoordsAppend, GeoArrowBuilderOffsetAppend", "src/geoarrow/builder.c: GeoArrowBuilderReserveBuffer"]}
{"id": "C33", "title": "Coordinates appended to a builder are read back unchanged", "statement": "Coordinates appended to a builder of either coordinate layout and read through the finished array's coordinate view are the appended coordinates with dimensions mapped by name.", "quantifier": "every list of coordinate views, dimension sets and both layouts", "why_tests_cant": "stride/offset arithmetic over unbounded appends and both layouts.", "anchors": ["src/geoarrow/geoarrow_type_inline.h: GeoArrowBuilderCoordsAppendUnsafe", "src/geoarrow/builder.c: GeoArrowBuilderFinish", "src/geoarrow/array_view.c: GeoArrowArrayViewSetArray"]}
{"id": "C34", "title": "Native writer visitor round trip", "statement": "Feeding features of a native type into the native writer's visitor, finishing, and visiting the array delivers the same features in order with nulls preserved, up to dropped empty parts.", "quantifier": "every list of features (and nulls) of each of the six geometry types and every chunking", "why_tests_cant": "offset buffers of up to three levels over unbounded feature lists.", "anchors": ["src/geoarrow/native_writer.c: *_point, *_multipoint, *_multilinestring, *_multipolygon callbacks", "src/geoarrow/array_view.c: GeoArrowArrayViewVisitNative"]}
{"id": "C35", "title": "Native writer Append round trip", "statement": "Appending geometry views of the writer's type and nulls, finishing and visiting the array delivers the same features in order.", "quantifier": "every list of well-formed geometry views of the writer's type and nulls", "why_tests_cant": "separate code path from the visitor; unbounded lists.", "anchors": ["src/geoarrow/native_writer.c: GeoArrowNativeWriterAppend, GeoArrowNativeWriterAppendNull"]}
{"id": "C36", "title": "A rejected native Append leaves the writer unchanged", "statement": "If appending a geometry to a native writer fails because the geometry cannot be represented in the writer's type, the array finished later is as if the call had not been made.", "quantifier": "every writer state and every incompatible geometry", "why_tests_cant": "partial effects of failed appends depend on state.", "anchors": ["src/geoarrow/native_writer.c: GeoArrowNativeWriterAppend"]}
{"id": "C37", "title": "A rejected feature does not corrupt later features", "statement": "Features written through the native visitor after a feature that was accepted or rejected are unaffected by its content: coordinates of one feature never appear in another.", "quantifier": "every history of features, including collections fed to simpler types", "why_tests_cant": "needs a history in which an odd feature precedes an ordinary one.", "anchors": ["src/geoarrow/native_writer.c: geom_end_multipoint, feat_end_multipoint, feat_end_point"]}
{"id": "C38", "title": "Visiting a slice equals visiting the elements of the slice", "statement": "Visiting (offset, length) of a native array delivers exactly the callbacks for elements offset..offset+length-1 in order; visiting consecutive ranges equals visiting the union; array and child offsets of sliced arrays are honoured at every nesting level.", "quantifier": "every native array (any offsets at every level, validity), every range", "why_tests_cant": "offset arithmetic at four levels; unit tests use few slices.", "anchors": ["src/geoarrow/array_view.c: GeoArrowArrayViewVisitNative*", "src/geoarrow/array_reader.c: GeoArrowArrayReaderVisit"]}
{"id": "C39", "title": "Boxes are visited as closed rectangles", "statement": "Visiting a box array delivers for each non-null box the closed counter-clockwise rectangle of its bounds, or an empty polygon when a minimum exceeds its maximum.", "quantifier": "every box array and every bound value", "why_tests_cant": "all double pairs, including NaN and infinities.", "anchors": ["src/geoarrow/array_view.c: GeoArrowArrayViewVisitNativeBox"]}
{"id": "C40", "title": "The box kernel computes the bounding box of every feature", "statement": "For every feature the box kernel outputs the least and greatest non-NaN X and Y over all its coordinates (an inverted infinite box when there are none), one row per feature with nulls preserved.", "quantifier": "every batch of features, every ordinate value", "why_tests_cant": "min/max over unbounded data with NaN semantics and null history.", "anchors": ["src/geoarrow/kernel.c: coords_box, feat_end_box, box_finish"]}
{"id": "C41", "title": "Aggregated bounds do not depend on batching", "statement": "The box_agg kernel gives the bounding box of all coordinates of all batches, independent of how features are divided into batches and of coordinate chunking.", "quantifier": "every list of batches", "why_tests_cant": "all partitions of all feature lists.", "anchors": ["src/geoarrow/kernel.c: kernel_finish_box_agg, coords_box"]}
{"id": "C42", "title": "The unique geometry types kernel reports exactly the types present", "statement": "The kernel's output is the strictly increasing list of ISO type codes of the features that have at least one coordinate, independent of batching and order.", "quantifier": "every list of batches of features", "why_tests_cant": "set semantics over all histories with early termination per feature.", "anchors": ["src/geoarrow/kernel.c: coords_geometry_types, kernel_finish_unique_geometry_types_agg, kernel_push_batch_by_feature"]}
{"id": "C43", "title": "A failed batch does not contaminate the next batch", "statement": "If pushing a batch into a kernel fails, the output of a following successful push contains exactly the rows of that following batch.", "quantifier": "every failing batch and following batch", "why_tests_cant": "needs the failure position inside the batch as a free variable.", "anchors": ["src/geoarrow/kernel.c: kernel_push_batch, box_finish"]}
{"id": "C44", "title": "Metadata serialisation fills exactly the reported size", "statement": "Serialising metadata writes exactly the number of bytes it reports, never more than the caller's capacity, and adds a terminator only if there is room.", "quantifier": "every metadata view (edge type, CRS type, CRS text) and buffer size", "why_tests_cant": "size is computed by a separate pass; disagreement depends on the CRS text.", "anchors": ["src/geoarrow/metadata.c: GeoArrowMetadataCalculateSerializedSize, GeoArrowMetadataSerializeInternal, GeoArrowMetadataSerialize"]}
{"id": "C45", "title": "Metadata round trip", "statement": "Parsing serialised metadata gives back the same edge type, CRS type and CRS.", "quantifier": "every metadata view whose CRS is arbitrary text or a JSON value", "why_tests_cant": "all strings, including quotes and backslashes.", "anchors": ["src/geoarrow/metadata.c: GeoArrowMetadataViewInit, GeoArrowMetadataSerialize"]}
{"id": "C46", "title": "Metadata parsing is memory-safe and terminates", "statement": "For arbitrary text, viewing metadata reads only the supplied bytes and returns.", "quantifier": "every byte string", "why_tests_cant": "hostile input; non-termination and one-byte over-reads are not observable by ordinary tests.", "anchors": ["src/geoarrow/metadata.c: FindString, FindList, FindObject, SkipUntil, ParseJSONMetadata"]}
{"id": "C47", "title": "CRS types are recognised by name", "statement": "The reported CRS type is PROJJSON, WKT2:2019, authority code or SRID exactly when the metadata's crs_type value is that name.", "quantifier": "every crs_type string", "why_tests_cant": "all strings of every length.", "anchors": ["src/geoarrow/metadata.c: ParseJSONMetadata"]}
{"id": "C48", "title": "CRS unescaping inverts escaping within the buffer bound", "statement": "Unescaping a quoted CRS yields the original text for every text, returns its length, and writes at most the given number of bytes.", "quantifier": "every CRS text and buffer size", "why_tests_cant": "all strings and all buffer sizes.", "anchors": ["src/geoarrow/metadata.c: GeoArrowUnescapeCrs, GeoArrowMetadataSerializeInternal"]}
{"id": "C49", "title": "Validity bitmaps record exactly the appended bits", "statement": "After any sequence of runs of bits appended to a validity bitmap, reading bit i returns the i-th appended bit and the byte size is the number of bits divided by eight rounded up.", "quantifier": "every sequence of runs", "why_tests_cant": "masking at byte boundaries depends on run positions modulo eight.", "anchors": ["src/vendor/nanoarrow/nanoarrow.h: ArrowBitsSetTo, ArrowBitmapAppend, ArrowBitGet"]}
{"id": "C50", "title": "C++ list sequences visit exactly the vertices of their elements", "statement": "Visiting all vertices of a (nested) list sequence delivers the concatenation of the vertices of its elements in order; slicing a sequence and visiting equals visiting the selected elements.", "quantifier": "every offsets array, nesting depth, offset and length", "why_tests_cant": "offset composition over unbounded data.", "anchors": ["src/geoarrow/hpp/array_util.hpp: ListSequence::ValidChildElements, UpdateChild, Slice, VisitVertices, CoordSequence::coord"]}
{"id": "C51", "title": "C++ edge visiting delivers consecutive pairs", "statement": "Visiting edges of a coordinate sequence of n vertices delivers the n-1 consecutive pairs in order (none for n<2); points are delivered as degenerate edges.", "quantifier": "every sequence", "why_tests_cant": "unbounded sequences.", "anchors": ["src/geoarrow/hpp/array_util.hpp: CoordSequence::VisitEdges, UnalignedCoordSequence::VisitEdges, PointArray::VisitEdges"]}
{"id": "C52", "title": "C++ empty boxes contain nothing", "statement": "The Empty() box of every dimension set has +infinity for every minimum and -infinity for every maximum.", "quantifier": "every box type (XY, XYZ, XYM, XYZM)", "why_tests_cant": "aggregate initialisation silently zero-fills missing values.", "anchors": ["src/geoarrow/hpp/array_util.hpp: BoxXY::Empty, BoxXYZ::Empty, BoxXYM::Empty, BoxXYZM::Empty"]}
{"id": "C53", "title": "Serialized arrays are visited element by element", "statement": "Visiting a WKB or WKT array range delivers, in order, one feature per element: the null feature where the validity bit is clear, otherwise the callbacks of reading the element's own bytes.", "quantifier": "every WKB/WKT array (offsets, offset, validity) and range", "why_tests_cant": "offset and validity arithmetic over arbitrary arrays.", "anchors": ["src/geoarrow/array_reader.c: GeoArrowArrayReaderVisitWKB, GeoArrowArrayReaderVisitWKT"]}
{"id": "C54", "title": "Conversion between serialised and native form is lossless", "statement": "Converting a WKB array to a native type able to hold it and back to WKB gives an array with element-wise identical bytes.", "quantifier": "every WKB array of ISO native-endian geometries of one type without empty parts", "why_tests_cant": "composition of reader, native writer, array view and WKB writer over unbounded input.", "anchors": ["src/geoarrow/kernel.c: as_geoarrow", "src/geoarrow/array_writer.c: GeoArrowArrayWriterInitVisitor"]}
{"id": "C55", "title": "Array views reject arrays whose shape does not fit", "statement": "Setting an array on a view succeeds only if the number of children and buffers at every level fit the view's type, and then exposes offsets and coordinate pointers of the right level.", "quantifier": "every array tree", "why_tests_cant": "arrays arriving over the C data interface are arbitrary.", "anchors": ["src/geoarrow/array_view.c: GeoArrowArrayViewSetArrayInternal, GeoArrowArrayViewSetArray"]}
{"id": "C56", "title": "Flattened buffer numbering covers each buffer exactly once", "statement": "The builder's flat buffer index i addresses, for every type, the i-th buffer of the depth-first traversal of the array tree, and indexes out of range are rejected.", "quantifier": "every array tree and index", "why_tests_cant": "trees of different shapes per type; index arithmetic.", "anchors": ["src/geoarrow/geoarrow_type_inline.h: _GeoArrowArrayFindBuffer"]}
{"id": "C57", "title": "Printing and parsing doubles round-trips", "statement": "A double printed with precision 16 and parsed by a correctly rounding parser gives the same value, so geometries written as WKT and read again keep their ordinates.", "quantifier": "every finite double", "why_tests_cant": "2^64 values.", "anchors": ["src/geoarrow/double_print.c", "src/geoarrow/double_parse_fast_float.cc", "src/geoarrow/ryu/d2s.c"]}
{"id": "C58", "title": "The C++ WKB parser classifies bad headers", "statement": "Fewer than five bytes are reported as too few bytes; a byte order mark other than 0 or 1 as an invalid byte order; a type code that is not a geometry type as an invalid geometry type.", "quantifier": "every byte string with such a header", "why_tests_cant": "2^32 type words and arbitrary following bytes.", "anchors": ["src/geoarrow/hpp/wkb_util.hpp: WKBParser::ParseGeometry, ReadEndianUnchecked"]}
{"id": "C59", "title": "C++ coordinate conversion keeps ordinates by name", "statement": "Converting a coordinate between any two of XY, XYZ, XYM, XYZM keeps the ordinates both have and fills the others with NaN.", "quantifier": "every pair of coordinate types and every coordinate", "why_tests_cant": "16 pairs over all doubles.", "anchors": ["src/geoarrow/hpp/array_util.hpp: CoordCast, XY, XYZ, XYM, XYZM"]}
{"id": "C60", "title": "C++ box arrays expose their corners", "statement": "The lower (upper) bound of a box array is the array of the minimum (maximum) corners, with the same validity.", "quantifier": "every box array, dimension set, offset, length, stride", "why_tests_cant": "pointer arithmetic over arbitrary layouts.", "anchors": ["src/geoarrow/hpp/array_util.hpp: BoxArray::LowerBound, BoxArray::UpperBound"]}
{"id": "C61", "title": "C++ WKB arrays are visited element by element", "statement": "Visiting vertices or edges of a WKB array delivers, in order, those of its non-null elements converted to the wanted coordinate type; an element that does not parse is reported by index after everything before it was visited; slices select elements.", "quantifier": "every WKB array (offsets, offset, validity), every destination coordinate type", "why_tests_cant": "offset, validity and parser state over arbitrary arrays.", "anchors": ["src/geoarrow/hpp/wkb_util.hpp: WKBBlobSequence, WKBSequenceIterator, WKBGeometry::VisitVertices, WKBGeometry::VisitEdges", "src/geoarrow/hpp/array_util.hpp: Array::VisitVertices, BinarySequence::blob"]}
{"id": "C62", "title": "as_geoarrow converts arrays between types", "statement": "The as_geoarrow kernel starts exactly for the types that can be written; pushing an array of any readable type whose features the wanted type can hold (native: of the type or promotable to it; WKB: nested up to 29 levels; WKT: up to 31; within 32-bit offsets) yields an array of the same length of the wanted type with the same features (native: in the stored form; WKB: ISO encodings; WKT: texts), nulls for nulls, with nothing from earlier batches; the output schema describes the type and keeps the extension metadata of the input.", "quantifier": "every option list, every input array of every type (offset, length, validity, layout), every earlier history of successful pushes", "why_tests_cant": "combinations of input and output types over unbounded arrays.", "anchors": ["src/geoarrow/kernel.c: finish_start_as_geoarrow, kernel_push_batch, finish_push_batch_as_geoarrow", "src/geoarrow/array_writer.c: GeoArrowArrayWriterInitFromType, GeoArrowArrayWriterInitVisitor, GeoArrowArrayWriterFinish", "src/geoarrow/metadata.c: GeoArrowSchemaSetMetadataFrom"]}
{"id": "C63", "title": "format_wkt yields the text of each feature", "statement": "The format_wkt kernel yields for each feature its WKT with the requested precision, null for null; with a maximum size each text is cut to that many bytes.", "quantifier": "every array of every type, every precision and limit, every earlier history of successful pushes", "why_tests_cant": "unbounded arrays; the limit interacts with every position in every text.", "anchors": ["src/geoarrow/kernel.c: finish_start_format_wkt, kernel_push_batch_by_feature, finish_push_batch_format_wkt", "src/geoarrow/wkt_writer.c: WKTWriterWrite, feat_end_wkt, GeoArrowWKTWriterFinish"]}
{"id": "C64", "title": "Array writers write the features they are given, with the options set", "statement": "An array writer given any sequence of features through its visitor and then finished yields an array with exactly those features in the writer's type, nulls for nulls; for WKT with the precision and multipoint style set before the visitor was initialised (defaults 16 and flat), later settings having no effect; WKB and native writers refuse these options and are unchanged; after Finish the writer starts afresh.", "quantifier": "every writable type, every sequence of settings, every sequence of features that the type can hold, every division of coordinates over callbacks, every earlier history", "why_tests_cant": "unbounded histories and feature sequences.", "anchors": ["src/geoarrow/array_writer.c: GeoArrowArrayWriterInitFromType, GeoArrowArrayWriterSetPrecision, GeoArrowArrayWriterSetFlatMultipoint, GeoArrowArrayWriterInitVisitor, GeoArrowArrayWriterFinish"]}
{"id": "C65", "title": "Options of the C++ array writer act as named", "statement": "SetPrecision sets the number of decimals and SetFlatMultipoint the multipoint style of the text written by a C++ ArrayWriter, and nothing else.", "quantifier": "every sequence of settings and every sequence of features", "why_tests_cant": "the effect of a setting shows in every later text.", "anchors": ["src/geoarrow/hpp/array_writer.hpp: ArrayWriter::SetPrecision, ArrayWriter::SetFlatMultipoint, ArrayWriter::visitor, ArrayWriter::Finish"]}
{"id": "C66", "title": "Numbers are printed accurately and in bounded space", "statement": "A finite number is printed as a decimal: up to 10^17 in absolute value with at most the requested number of decimals, beyond in scientific notation. The text is a decimal that rounds to the number and has as few decimals as possible, the closest to the number of its length, itself rounded half to even to the requested decimals; so it differs from the number by at most half a unit of the last decimal plus half a unit in the last place. Every number, including infinities and NaN, takes at most 36 characters at the precisions writers use.", "quantifier": "every double, every precision", "why_tests_cant": "2^64 doubles; the digits come from table-driven 128-bit arithmetic.", "anchors": ["src/geoarrow/double_print.c: GeoArrowPrintDouble", "src/geoarrow/ryu/d2s.c: d2d, to_chars_fixed, GeoArrowd2sfixed_buffered_n, GeoArrowd2sexp_buffered_n", "src/geoarrow/ryu/d2s_full_table.h"]}
{"id": "C67", "title": "C++ data types keep what they are not told to change", "statement": "A GeometryDataType changed with WithGeometryType, WithDimensions (XY, XYZ, XYM, XYZM) or WithCoordType has the requested part and otherwise the same parts, edge type, CRS type and CRS, or an exception is thrown exactly if there is no such type; Simple and Multi do the same for the geometry type; a schema made with InitSchema (or a storage schema with the extension name and metadata) gives the same data type back; ToString returns a text of bounded length that tells type and edge type.", "quantifier": "every data type that can be made from a type identifier, parts, a schema or another data type, every enumerator, every metadata text and every storable CRS", "why_tests_cant": "data types are rebuilt through their metadata text, so that every CRS text passes through escaping and parsing.", "anchors": ["src/geoarrow/hpp/geometry_data_type.hpp: GeometryDataType", "src/geoarrow/metadata.c: GeoArrowSchemaSetMetadata, GeoArrowMetadataSetLonLat, GeoArrowMetadataSerialize"]}
{"id": "C68", "title": "Kernels compute what their names say, from their names on", "statement": "A kernel made by name and started with a schema and options does, for every array pushed and read as of the schema's type, what the name says: box yields the bounds of each feature; box_agg the bounds of everything pushed; unique_geometry_types_agg the ISO codes of the features pushed that have coordinates; format_wkt texts; as_geoarrow the same features in the type asked for; visit_void_agg accepts an array of WKT exactly if all its elements are in the grammar, and of WKB exactly if the WKB reader accepts every element; void and void_agg yield nulls. Aggregates may be finished at any time and repeatedly. start succeeds exactly if the schema is that of an extension type and the options suit the kernel (type: a type that can be written; boxes: metadata that can be read, with planar edges), and the output schema describes the output: its type, with the CRS of the input.", "quantifier": "every name, schema, option list, every history of pushes and finishes, every array of every type", "why_tests_cant": "names, schemas, metadata, options and batches combine without bound.", "anchors": ["src/geoarrow/kernel.c: GeoArrowKernelInit, kernel_visitor_start, kernel_push_batch, kernel_push_batch_by_feature, schema_box, finish_start_unique_geometry_types_agg, kernel_get_arg_long", "src/geoarrow/visitor.c: GeoArrowVisitorInitVoid"]}
{"id": "C69", "title": "Numbers are read as the nearest double", "statement": "In the default build a text that begins with a number (perhaps a minus sign, digits with perhaps a point among or beside them, perhaps an exponent) is read as the double nearest to the longest such number, ties to the even one, with the sign of the text, however many digits there are; a number that overflows, or that is not zero and rounds to zero, is refused; what follows the number makes no difference. A text without a number at its beginning is refused unless it begins with nan or inf in any case, perhaps after a minus sign. Number reading always ends within its fixed-size big integers.", "quantifier": "every text, every rounding mode of the machine", "why_tests_cant": "texts of unbounded length; errors of one unit in the last place hide between the doubles that tests try.", "anchors": ["src/geoarrow/double_parse_fast_float.cc: GeoArrowFromChars", "src/geoarrow/fast_float.h: from_chars, parse_number_string, compute_float, digit_comp, positive_digit_comp, negative_digit_comp, parse_infnan"]}
{"id": "C70", "title": "Memory handed to a builder is given back exactly once", "statement": "A buffer handed to a builder with a deallocator (or, in C++, an object wrapped as a buffer) is accepted exactly if the builder has a buffer of that number. Memory that was accepted is held by the builder, then by the array it finishes, unchanged, until it is replaced, asked to grow, or its holder is reset or released; then the deallocator is called once, with the pointer and size handed over. When the builder was reset and all arrays released, every deallocator accepted was called exactly once, none that was refused was called, wrapped objects were destroyed exactly once in either case, and all memory the builder allocated was freed exactly once.", "quantifier": "every builder type, every history of handing over, reserving, filling, finishing (successfully or not), releasing arrays in any order and resetting", "why_tests_cant": "a leak or double free depends on the order of calls in histories of unbounded length, and on which of the calls fail.", "anchors": ["src/geoarrow/builder.c: GeoArrowBuilderSetOwnedBuffer, GeoArrowBufferDeallocateWrapper, GeoArrowBuilderReserveBuffer, GeoArrowBuilderFinish, GeoArrowBuilderReset", "src/geoarrow/hpp/array_writer.hpp: ArrayBuilder::SetBufferWrapped", "src/geoarrow/hpp/internal.hpp: FreeWrappedBuffer"]}
{"id": "C71", "title": "C++ arrays show the features of the Arrow array they are made from", "statement": "A PointArray, LinestringArray, PolygonArray, MultipointArray, MultiLinestringArray or MultiPolygonArray is made from a view of a native Arrow array exactly if the array is nested as deeply and its coordinates have at least as many ordinates as the coordinate type; otherwise EINVAL is returned. With the coordinate type of the array, any slice of it visits exactly the vertices (converted to the coordinate type asked for) and edges of the features of its slots that are not null, in order - the same features that the C reader visits - and, without nulls, Coords() is the sequence of all vertices. With a coordinate type that names the first axes of the array's, the other ordinates are left out. A BoxArray shows the lower and upper bounds of the boxes that are not null, a WKBArray the features of the encodings.", "quantifier": "every native array of every type, dimensions and coordinate representation, sliced at every level, with or without nulls; every slice; every destination coordinate type", "why_tests_cant": "arrays, offsets and slices of unbounded size at four nesting levels.", "anchors": ["src/geoarrow/hpp/array_util.hpp: Array::Init, CoordSequence::InitFrom, ListSequence::InitFrom, Array::VisitVertices, PointArray, BoxArray, LinestringArray, PolygonArray, MultipointArray, MultiLinestringArray, MultiPolygonArray, BinarySequence::InitFrom", "src/geoarrow/hpp/wkb_util.hpp: WKBArray"]}
{"id": "C72", "title": "C++ iterators are positions in their sequence", "statement": "An iterator obtained from begin(), or dbegin(j) for the ordinates of one dimension, and moved by any series of ++, --, += and -= stands at the position that is the sum of the moves: differences and comparisons are those of positions, end() is size() after begin(), *it is the element (coordinate, list, blob, ordinate j) at the position, it[k] the one k further, and it++ returns the element before moving. Sequences set up from pointers with InitInterleaved, InitSeparated or InitFrom hold the coordinates that these pointers and the stride describe, aligned or not, in either byte order; null data are refused unless the sequence is empty.", "quantifier": "every sequence, every series of moves, every position and distance inside the sequence", "why_tests_cant": "series of moves and sequences of unbounded length.", "anchors": ["src/geoarrow/hpp/array_util.hpp: BaseRandomAccessIterator, CoordSequenceIterator, ListSequenceIterator, BinarySequenceIterator, StridedIterator, UnalignedStridedIterator, CoordSequence::dbegin, CoordSequence::InitInterleaved, CoordSequence::InitSeparated, UnalignedCoordSequence"]}
{"id": "C73", "title": "The nodes of an owning geometry are a list, with memory or without", "statement": "Appending a node (plain or inline), resizing (plain or inline), copying a view and storing into nodes do to the nodes of an owning geometry what they would do to a list: appended nodes are empty and last, resizing keeps the first nodes, a shallow copy has the nodes of its source and so denotes the same geometry; sizes that cannot be had are refused; while there is room, appending moves no node. A call for which there is no memory returns ENOMEM, leaves the nodes as they are, and later calls find them so. Resetting gives back the memory. A node set over a row- or column-major array of the caller shows the coordinates of the array.", "quantifier": "every history of calls, each with memory or without; every size; every array of coordinates of every dimensions", "why_tests_cant": "histories of unbounded length; what is lost depends on which allocation fails and on what is called afterwards.", "anchors": ["src/geoarrow/geometry.c: GeoArrowGeometryInit, GeoArrowGeometryShallowCopy, GeoArrowGeometryReset, GeoArrowGeometryResizeNodes, GeoArrowGeometryAppendNode, GeoArrowGeometrySyncGeomToNodes, GeoArrowGeometrySyncNodesToGeom", "src/geoarrow/geoarrow_type_inline.h: GeoArrowGeometryResizeNodesInline, GeoArrowGeometryAppendNodeInline, GeoArrowGeometryNodeSetInterleaved, GeoArrowGeometryNodeSetSeparated"]}
{"id": "C74", "title": "Without the bundled number libraries numbers are printed and read as precisely", "statement": "In the build without Ryu and fast_float, with a C library as the standard describes it: with a precision of at least one, numbers of at most 10^17 are printed as decimals that are the number rounded to the precision, ties to even, with their sign and without needless zeros; larger ones with enough digits to be read back; no text is longer than 39 characters. Exactly the texts of less than 64 characters are read that consist of white space and a complete number, infinity or nan, perhaps with a sign; numbers as the nearest double, or infinite if they overflow. With precision zero a whole number is printed as itself. Doubles for which the precision suffices are read back, and well-known text written by either build is read by either build as the same geometry.", "quantifier": "every double, every precision up to 16 (or 19), every text, every C library that follows the standard", "why_tests_cant": "doubles and texts are too many to try, and the C library of the test machine is one of many.", "anchors": ["src/geoarrow/double_print.c: GeoArrowPrintDouble", "src/geoarrow/double_parse_std.c: GeoArrowFromChars"]}
{"id": "C75", "title": "A C++ reader shows the last array it accepted and releases what it was given exactly once", "statement": "An ArrayReader made for a type is of that type until it is destroyed. After any calls, View() of a reader of native, WKB or WKT arrays with 32-bit offsets is a view of the array it was given last, if that was accepted (moved in or borrowed, whatever was accepted or refused before), and visiting delivers exactly the features of that array; View() of a reader of large or view arrays throws. An array moved into a reader stays readable as long as the reader exists and is released exactly once, when the reader is destroyed; a borrowed array is never released by the reader. Everything a reader allocated is freed exactly once, also if its constructor throws, and every reader that exists can be destroyed.", "quantifier": "every history of making readers (from types and schemas, successfully or not), giving them arrays in either way, viewing, visiting, releasing borrowed arrays and destroying, for any number of readers", "why_tests_cant": "leaks, double releases and stale views depend on the order of calls in histories of unbounded length and on which arrays are refused.", "anchors": ["src/geoarrow/hpp/array_reader.hpp: ArrayReader", "src/geoarrow/array_reader.c: GeoArrowArrayReaderInitFromType, GeoArrowArrayReaderInitFromSchema, GeoArrowArrayReaderSetArray, GeoArrowArrayReaderArrayView, GeoArrowArrayReaderVisit, GeoArrowArrayReaderReset"]}
{"id": "C76", "title": "A builder that runs out of memory keeps what it accepted", "statement": "A call on a builder for which there is no memory returns ENOMEM, changes nothing that its buffers or finished arrays show, and the builder can be used on: no later call that the API allows uses memory that is not there; calls succeed again as soon as there is memory; every buffer shows exactly the bytes accepted for it, in the builder and in the arrays finished afterwards; and when the builder was reset and the arrays released, no memory is left allocated.", "quantifier": "every builder type, every history of appending, reserving, finishing (valid or not), releasing and resetting, with every allocation succeeding or failing, and all contents of fresh memory", "why_tests_cant": "tests cannot make the n-th allocation of every history fail; what is lost shows only calls later, and depends on what fresh memory contains.", "anchors": ["src/geoarrow/builder.c: GeoArrowBuilderReserveBuffer, GeoArrowBuilderFinish, GeoArrowBuilderReset", "src/geoarrow/geoarrow_type_inline.h: GeoArrowBuilderAppendBuffer, GeoArrowBuilderAppendBufferUnsafe, GeoArrowBuilderCoordsReserve, GeoArrowBuilderCoordsAppend"]}
{"id": "C77", "title": "A WKB writer that runs out of memory keeps what it accepted", "statement": "However often memory is refused, calls on a WKB writer are not undefined; a feature or null is answered with ENOMEM exactly if memory for it was refused; the array made by a finish that returns 0 has exactly the accepted features and nulls as its elements, in order; a finish that fails can be repeated when there is memory and loses nothing. Whatever failed before, features accepted afterwards are shown with their bytes, and features that are not null are not shown as null.", "quantifier": "every history of feeding features, adding nulls and geometry views and finishing, with every request for memory granted or refused, and all contents of fresh memory", "why_tests_cant": "tests cannot make the n-th allocation of every history fail, and what is lost shows only in the array that is finished later.", "anchors": ["src/geoarrow/wkb_writer.c: GeoArrowWKBWriterInitVisitor, GeoArrowWKBWriterFinish", "src/vendor/nanoarrow/nanoarrow.h: ArrowBufferReserve, ArrowBufferAppend, ArrowBitmapReserve, ArrowBitmapAppend", "src/vendor/nanoarrow/nanoarrow.c: ArrowArrayInitFromType, ArrowArrayFinishBuildingDefault"]}
{"id": "C78", "title": "A kernel gives back the memory it takes", "statement": "Whatever calls a client makes on kernels in an order the API allows (one start per kernel, output given wherever an array is made), and whatever of them fail, no block of memory is freed twice and no null pointer is followed; arrays and schemas handed out have memory of their own that stays theirs when the kernel goes on or is released; and once the kernel is released, what is still allocated is exactly what was allocated before and the arrays and schemas the client has not released.", "quantifier": "every history of initialising, starting, pushing, finishing and releasing all kinds of kernels and of releasing what they hand out, with every call accepted or refused and every buffer growing or not", "why_tests_cant": "tests run a leak checker on a few histories; who owns each buffer depends on which call failed before.", "anchors": ["src/geoarrow/kernel.c: GeoArrowKernelInit, kernel_visitor_start, kernel_push_batch, kernel_release_visitor, finish_start_as_geoarrow, box_finish", "src/geoarrow/array_writer.c: GeoArrowArrayWriterInitFromType, GeoArrowArrayWriterFinish, GeoArrowArrayWriterReset", "src/geoarrow/array_reader.c: GeoArrowArrayReaderInitFromSchema, GeoArrowArrayReaderReset", "src/geoarrow/builder.c: GeoArrowBuilderFinish, GeoArrowBuilderReset", "src/geoarrow/wkb_writer.c: GeoArrowWKBWriterFinish", "src/geoarrow/native_writer.c: GeoArrowNativeWriterFinish"]}
{"id": "C79", "title": "Generic C++ code sees the features of an array whatever its type", "statement": "The class of arrays that a dispatched call runs with is that of the type's geometry type and dimensions, or that of WKB; for every other number given as type it throws and runs nothing. The class chosen when a program is compiled is the one chosen when it runs, and a type and its traits determine each other. A dispatched function that initialises its array from a view and visits vertices gets exactly the vertices of the features that are not null, in order, with the ordinates of the coordinate type asked for; the same features give the same vertices in every native form and in WKB. Likewise for edges.", "quantifier": "every number given as type, every accepted array of every native type and of WKB, every coordinate type asked for", "why_tests_cant": "the classes are stamped out by macros for 48 types and two ways of storing; tests call a few of them with one array each.", "anchors": ["src/geoarrow/hpp/geometry_type_traits.hpp: GEOARROW_DISPATCH_ARRAY_CALL, GEOARROW_DISPATCH_NATIVE_ARRAY_CALL, TypeTraits, GeometryTypeTraits", "src/geoarrow/hpp/array_util.hpp: Array::Init, Array::VisitVertices, Array::VisitEdges", "src/geoarrow/hpp/wkb_util.hpp: WKBArray"]}
{"id": "C80", "title": "An Arrow C++ extension type says what its storage is", "statement": "An extension type made from a type identifier, parts or a data type, loaded by Deserialize, or got from another one by changing its type or metadata has the storage type of the GeoArrow type it says it is of, and that type's name. Serialize and Deserialize give an equal extension type back, and equal extension types have the same type, edge type and CRS. The With... functions change what they are named after and nothing else, or return a failure. After RegisterAll, Arrow C++ makes every field of a GeoArrow type into the extension type it was, and UnregisterAll undoes that.", "quantifier": "every type, every metadata text, every chain of making, loading and changing extension types, every storage type, every registry", "why_tests_cant": "tests check a few types with one CRS, and whether storage and type agree shows only when data is exchanged.", "anchors": ["src/geoarrow/hpp/arrow_extension_type.hpp: GeometryExtensionType"]}
{"id": "C81", "title": "An error message about well-known text says where the text goes wrong", "statement": "When well-known text is rejected there is a message that names a byte and what was expected there, and there is none when it is read. The text before that byte is right: with what the message names and something more after it, it is read. What is at that byte is wrong: every text that begins the same way, up to the end of the token at that byte and one byte more, is rejected, with the same message.", "quantifier": "every text, every number parser that does not accept the empty text, every reader state, every visitor that does not fail, every continuation", "why_tests_cant": "tests compare the messages of a few wrong texts; that nothing before the place was wrong, and that nothing after it can help, is about all continuations of the text.", "anchors": ["src/geoarrow/wkt_reader.c: SetParseErrorAuto, GeoArrowWKTReaderVisit, ReadTaggedGeometry, ReadMultipointFlat, ReadCoordinate, GeoArrowWKTAssertChar, GeoArrowWKTAssertWhitespace, GeoArrowWKTAssertWordEmpty"]}
{"id": "C82", "title": "A WKT writer that runs out of memory keeps what it accepted", "statement": "However often memory is refused, calls on a WKT writer are not undefined, not even if the client goes on after failures; a feature or null is answered with ENOMEM exactly if memory for it was refused; the array made by a finish that returns 0 has exactly the texts of the accepted features, cut to the size limit, and the accepted nulls as its elements, in order; a finish that fails can be repeated when there is memory and loses nothing. Whatever failed before, features accepted afterwards are shown with their texts, and features that are not null are not shown as null.", "quantifier": "every history of feeding features and nulls and finishing, with every request for memory granted or refused, every precision and size limit, every number formatter that writes at most 40 characters, and all contents of fresh memory", "why_tests_cant": "tests cannot make the n-th allocation of every history fail, and what is lost shows only in the array that is finished later.", "anchors": ["src/geoarrow/wkt_writer.c: GeoArrowWKTWriterInitVisitor, GeoArrowWKTWriterFinish", "src/vendor/nanoarrow/nanoarrow.h: ArrowBufferReserve, ArrowBufferAppend, ArrowBitmapReserve, ArrowBitmapAppend", "src/vendor/nanoarrow/nanoarrow.c: ArrowArrayInitFromType, ArrowArrayFinishBuildingDefault"]}
{"id": "C83", "title": "An error message is a text about the last error, and exceptions carry it", "statement": "After an error was set, its message is a terminated text: what the format and its arguments say, cut after 1023 bytes, with nothing left of earlier messages; the result says whether it was cut, and a caller that passes no error gets none. The message about rejected well-known text is never cut, reads 'Expected ... at byte ...' with a byte such that the text before it can be continued to well-known text beginning with what is named, and different mistakes have different messages; text that is read leaves the message alone. The C++ wrappers throw exactly when a call failed; the exception has the code of the call and its text names the call, the code and the message, and the message is never read beyond its end.", "quantifier": "every format made of text, strings, numbers and sized strings with every argument whose text is shorter than 2^31 bytes, every history of messages, every well-known or other text shorter than 2^63 bytes, every code", "why_tests_cant": "tests look at a few short messages; cutting, leftovers of longer messages and readability are about all texts and all histories.", "anchors": ["src/geoarrow/util.c: GeoArrowErrorSet", "src/geoarrow/wkt_reader.c: SetParseErrorAuto", "src/geoarrow/hpp/exception.hpp: GEOARROW_THROW_NOT_OK, ErrnoException"]}
{"id": "C84", "title": "A scalar function made by name does what the name says", "statement": "A factory can be had for exactly the name 'void'; for every other name the result is ENOTSUP, the caller's structure is left alone and the message names what was asked for. In whatever order a client makes functions with the factory and initialises, executes and releases them, every call is answered as promised: the null type, an array with as many nulls as there are rows (a negative number is refused and leaves nothing to release), no error text; and an object that was released is marked as released, as the documentation says.", "quantifier": "every name, every content of the caller's structures, every history of making and using functions, every number of rows", "why_tests_cant": "tests call each function once, in one order; what a structure holds after a failure or a release depends on what it held before.", "anchors": ["src/geoarrow/scalar_udf.c: GeoArrowScalarUdfFactoryInit", "src/geoarrow/geoarrow_type.h: GeoArrowScalarUdf, GeoArrowScalarUdfFactory"]}
{"id": "C85", "title": "The C reader and the C++ parser agree on well-known binary", "statement": "Every valid encoding is the same geometry for the C reader and for the C++ parser, with or without bytes behind it; a byte string both accept is the same geometry for both; one whose type word means no geometry type is refused by both.", "quantifier": "every geometry and every of its encodings, every byte string, every earlier state of reader and parser", "why_tests_cant": "two independent decoders with different masks and checks: 2^32 type words, 256 byte order marks and arbitrary following bytes.", "anchors": ["src/geoarrow/wkb_reader.c: WKBReaderReadNodeGeometry, WKBReaderReadEndian", "src/geoarrow/hpp/wkb_util.hpp: WKBParser::ParseGeometry, WKBParser::Parse"]}
