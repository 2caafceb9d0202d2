# Formal model of geoarrow-c in Lean 4

## 1. What this is

`/verif/lean/Verif` holds a hand-written Lean 4 model of the C sources in `/repo/src/geoarrow` (and the two C++
headers `hpp/array_util.hpp`, `hpp/wkb_util.hpp`), specifications written independently of the model, and theorems
relating the two. Nothing is executed from `/repo`; the model is a reading of the source, function by function, and
every definition cites the file and lines it models.

### Layout

* `Verif/Model/*`  the model. One file per C source file (or group of functions).
* `Verif/Spec/*`   specifications: geometry trees, their callback sequences, WKB/WKT grammars, Arrow arrays as lists.
  A spec uses the model's data types (bytes, arrays, events) but not the functions whose result it describes; where it
  describes histories of calls (a writer that was started and fed, a kernel after some pushes) it calls the API
  functions as a client would, to say which states are reachable.
* `Verif/Proof/*`  helper lemmas (no property is stated here).
* `Verif/Props/*`  the property theorems, each named after its property (`C12_...`), each followed by `example`s that
  instantiate its hypotheses on a concrete, non-trivial case.

### Modelling conventions

* Bytes are `BitVec 8`, doubles are their 64-bit patterns `BitVec 64`; nothing in the library does arithmetic on
  doubles, only copies and comparisons, so comparisons are modelled on bit patterns (`Dbl.lt`).
* A C function that can fail and mutates state is a function `state -> Res state value` where `Res` is
  `ok value state | err code state | ub`. On an error return the state reached so far is kept (C does not roll back).
  `ub` is a separate outcome for out-of-bounds reads/writes, shifts or indexing outside tables, and uninitialised
  reads. A theorem "no UB" is therefore a real claim.
* Fixed-width arithmetic is modelled with explicit wrapping where the C code can wrap (`uint32_t` products in
  WKB sizes, `int32_t` casts).  64-bit sizes/offsets are modelled as unbounded naturals/integers (stated per def).
* Memory allocation is assumed to succeed (ENOMEM paths are not modelled), but for C73, C76, C77 and C82, which have their own models.
* A visitor is a record of a state type and a handler `Event -> state -> Res state Unit`; readers are modelled as
  programs that call the handler, so early termination is part of the model.
* Recursion over untrusted input is modelled with well-founded or fuel-indexed recursion; where fuel is used a
  theorem shows the result does not depend on it.

## 2. Trusted base

* Lean 4.33.0's kernel and the Mathlib modules imported (checked by the same kernel).
* Axioms: only `propext`, `Classical.choice`, `Quot.sound` (see `Verif/Audit.lean`, which prints the axioms of every
  property theorem at build time). No axioms are added; no `sorry`, `native_decide` or `bv_decide`.
* The correspondence between the C/C++ text and the Lean definitions is by reading, not mechanised.

## 3. Per-property plan

| id | model | method |
|----|-------|--------|
| C01 | `BSwap32/64` on `BitVec` | bit-extensionality |
| C02 | type tables as functions on `Int` | case analysis over all integers |
| C03, C04 | schema trees (format, name, children), `SchemaInit*`, `SchemaViewInit*` | whole-table proof for C03; case analysis on parser for C04 |
| C05 | `GeoArrowMapDimensions`, `GeoArrowCoordViewCopy` on views into memory | case analysis on dims, induction on coords |
| C06, C07 | `NodeWriteSequence`, `ViewCopyCoordsGeneric` over byte memory | induction on coords/nodes; `_partial` for the 32-bit wrap and byte-order defects |
| C08–C11 | `VisitSequence`, `VisitNode`, `ViewVisit` over byte memory | strong induction; refinement to the tree's event list |
| C12–C14 | `wkb_reader.c` over bytes with explicit cursor and (stale) size | encoder spec by structural recursion on trees; soundness by induction on fuel |
| C15, C16 | `WKBParser` | same, with exact remaining accounting |
| C17–C22 | `wkb_writer.c` visitor state machine and Append path | invariant relating writer bytes to a stack of open geometries |
| C23–C25 | `wkt_writer.c` | same, numbers as an arbitrary printing function |
| C26–C29 | `wkt_reader.c` | well-founded recursion on remaining text; number parsing as an arbitrary function |
| C30, C31 | geometry builder visitor, `DeepCopy` | refinement to trees |
| C32, C33, C56 | builder buffers, coordinate appends, `_GeoArrowArrayFindBuffer` | invariants over operation lists |
| C34–C37 | `native_writer.c` | refinement: offset buffers denote nested lists |
| C38, C39, C53, C55 | `array_view.c`, `array_reader.c` | refinement to list slices |
| C40–C43 | `kernel.c` | folds over events; batch independence |
| C44–C48 | `metadata.c` | parser/printer lemmas; witnesses for defects |
| C49 | nanoarrow bitmap appends | bit-level invariant |
| C50–C52 | `hpp/array_util.hpp` | list lemmas; witness for the `Empty()` defect |
| C54 | `kernel.c` as_geoarrow, `array_writer.c` | composition of the array reader, native writer, array view and WKB writer theorems |
| C57, C66 | `double_print.c`, `ryu/*` with its tables; parsers by contract (nearest double, ties to even), met by the default parser (C69) | exact rational arithmetic; tables checked entry by entry in the kernel (finite); the interval invariant of the digit loops; a chosen parser shows the contract can be met |
| C69 | `fast_float.h` as used by `double_parse_fast_float.cc`: digit loops, the 128-bit approximation with its table, big integers, comparison of digits | the table of powers of five checked entry by entry in the kernel (finite); exact rational arithmetic; limbs denote numbers; truncated digits lie between neighbours; the grammar's longest match |
| C70 | ownership in `builder.c`: `SetOwnedBuffer`, `ReserveBuffer`, `Finish`, `Reset`, with nanoarrow's buffers and the release of arrays; `SetBufferWrapped` of C++ | a log of allocations and deallocations; the balance births = deaths + held as an invariant of every call, over every history |
| C71 | `Init` of the typed C++ arrays from the C array view of `array_view.c` | each slot of the Arrow array (`FeatureAt`, as for C38) is an element of the C++ sequence; then C50/C51 |
| C72 | iterators and `Init...` of `hpp/array_util.hpp` | position of an iterator = sum of its moves, by induction; contents of sequences as for C50 |
| C73 | node array of `geometry.c` with its buffer and blocks of memory, allocations that may fail | invariant: members and buffer agree, one block lives; by induction over histories of calls |
| C74 | `double_print.c` and `double_parse_std.c` without the bundled libraries; `snprintf` and `strtod` by contract (C standard, "C" locale, correct rounding) | exact rational arithmetic over the contract; the contract is met by functions chosen classically |
| C75 | `hpp/array_reader.hpp`, with the ownership in `array_reader.c` | a heap of private structures and a log of allocations and releases; an invariant of every call over every history; the last array given is found by cutting the history, then C38, C53 and C55 apply |
| C76 | `builder.c`, the inline functions of builders, and the buffers of nanoarrow, with allocations that may fail | blocks with addresses, so that pointers may dangle; an invariant says who points to which block, a ledger what was accepted; both are kept by every call on buffers, over every history; for coordinates the same after settling a state, that is raising the sizes to what was written, which commutes with every call; failures by general theorems and two concrete histories |
| C77 | the visitor, `GeoArrowWKBWriterFinish` and adding nulls and geometry views of `wkb_writer.c`, with nanoarrow's buffers and bitmaps and `ArrowArrayInitFromType`, where the k-th request for memory may be refused | step by step the writer looks like one that gets all its memory, up to its bitmap, until a request is refused (simulation); invariants on sizes for what holds after a refusal; failures by concrete histories |
| C78 | who owns which block of memory in `kernel.c`, `array_reader.c`, `array_writer.c`, the writers, the WKB reader with its geometry, and the builder: every allocation, move and release, with everything that depends on data as arguments | triples with a frame (separation logic over lists of blocks) for each function, then induction over histories; leaks by exhibiting the block that is left |
| C79 | `hpp/geometry_type_traits.hpp`: the traits and the dispatch macros, with initialising and visiting of the class that is picked | case analysis on all integers by quotient and remainder; C71 for what the class shows |
| C80 | `hpp/arrow_extension_type.hpp`: making, changing, storing, loading, comparing and registering extension types, with Arrow C++ as a parameter | invariant over all extension types a client can get; C67 and C04 for the data type and the storage; the refutations hold for every extension type |
| C81 | `wkt_reader.c` with its messages (what was expected, byte) | the reader with messages agrees with the reader of C26 (simulation); where it stops, the tokens read so far begin a text of the grammar of C28, and what was expected goes on with one (induction along the reader); two texts with a common beginning are read in lockstep up to the token at the mistake (relational induction) |
| C82 | the visitor and `GeoArrowWKTWriterFinish` of `wkt_writer.c`, with nanoarrow's buffers and bitmaps and `ArrowArrayInitFromType`, where the k-th request for memory may be refused | as C77: simulation by the writer of C22 to C25 up to the first refusal, invariants on sizes and options for what holds after one; failures by concrete histories |
| C83 | `GeoArrowErrorSet`, `SetParseErrorAuto`, `GEOARROW_THROW_NOT_OK` and `ErrnoException`; `vsnprintf` after the C standard | the text of the message computed in closed form; decimal notation by induction and its uniqueness (digits without leading zeros are determined by their value); messages of the WKT reader by C81 and injectivity of their text (last space) |
| C84 | `scalar_udf.c`, with function pointers as names of functions | induction over histories with the invariant that every function of the client has the callbacks of `void`; the message by C83 |
| C85 | the models of C12 and C16, together | valid encodings by C12 and C16; type words, also such that mix ISO codes and EWKB flags, by case analysis of both headers; disagreements by concrete bytes, for all earlier states |
| C58, C61 | `WKBParser`, WKB arrays in C++ | case analysis on headers; induction over elements |
| C59, C60 | `CoordCast`, `BoxArray` bounds | case analysis on the 16 pairs of types; pointer arithmetic |
| C62, C63 | `array_writer.c`, kernels `as_geoarrow`, `format_wkt`, output schema | invariants of the three writers lifted through the kernel's loops |
| C64, C65 | `array_writer.c` with its options; `class ArrayWriter` of `hpp/array_writer.hpp` | histories of settings, callbacks and finishes; the three writers' invariants |
| C68 | `kernel.c` from `GeoArrowKernelInit` on, `visitor.c` | histories of calls are simulated by those of the single kernels (C40–C43, C62, C63); schemas that the library makes are schemas of extension types |
| C67 | `class GeometryDataType` of `hpp/geometry_data_type.hpp`, storing metadata in a schema | an invariant of all data types that can be obtained; what the metadata parser finds as a CRS is found again wherever it is written |

Properties that turn out false of the code are kept in `properties.jsonl` as stated; the model proves the negation with
a concrete witness and a `_partial` theorem states what does hold (section 5 lists them).

## 4. What is modelled

| source | modelled | not modelled |
|--------|----------|--------------|
| `geoarrow_type_inline.h` | type tables, byte swaps, coordinate views, WKB size and node writing, buffer search, offset checks, coordinate appends | names of enum values used in messages only |
| `geometry.c` | geometry builder visitor, deep and shallow copy, visiting of nodes; in a second model (`Model/GeomNodes.lean`) the array of nodes with allocations that fail | |
| `wkb_reader.c`, `wkb_writer.c` | all; the writer a second time with requests for memory that are refused (C77) | init/reset of allocated memory beyond field values |
| `wkt_reader.c`, `wkt_writer.c` | all, over an arbitrary number parser/printer; the messages of the reader as values: what was wanted and at which byte (C81); their text (C83); the writer a second time with requests for memory that are refused (C82) | |
| `double_print.c`, `ryu/d2s.c`, `ryu/common.h`, `ryu/digit_table.h`, `ryu/d2s_full_table.h`, `ryu/d2s_intrinsics.h` | all of the default build with a 128-bit integer type; the `snprintf` build over a contract of `snprintf` | the variants for other compilers |
| `double_parse_fast_float.cc`, `fast_float.h` | all that `from_chars` of a `double` with the general format uses; the machine's products and quotients of doubles follow IEEE 754 (`Ieee`) | other formats and character types, variants for other compilers and SIMD |
| `double_parse_std.c` | all, over a contract of `strtod` | values of hexadecimal numbers and of `nan`; locales with another decimal point |
| `builder.c` | buffers, appends, finish; in a second model (`Model/Ownership.lean`) who owns and frees which memory; in a third (`Model/BuilderOom.lean`) what happens when memory runs out | |
| `native_writer.c` | all; ownership of memory with reset in C78 | |
| `array_view.c`, `array_reader.c`, `hpp/array_reader.hpp` | all, with raw (possibly malformed) arrays; ownership of readers in `Rdr` | failed allocations; `Reset` of views |
| `array_writer.c` | all; ownership of memory with reset in C78 | |
| `schema.c`, `schema_view.c` | all, over schema trees | reference counting |
| `metadata.c` | parser, serialiser, unescaping, storing in and copying between schemas, the built-in WGS84 CRS | |
| `kernel.c`, `visitor.c` | init, start, push and finish of all kernels, with their options and output schemas; memory from init to release (C78, where results of parsing and visiting are arbitrary) | error messages |
| `hpp/array_util.hpp` | all: sequences of coordinates (aligned or not), lists and blobs, their iterators, arrays, slices, vertices, edges, boxes, casts | ordinates other than `double` |
| `hpp/wkb_util.hpp` | parser, sequences, WKB arrays | |
| `hpp/array_writer.hpp` | class `ArrayWriter` (exceptions as error outcomes) | inheritance from `Visitor` wrappers |
| `hpp/geometry_data_type.hpp` | all: makers, `With...`, `Simple`, `Multi`, schemas, accessors, `ToString` | copying and moving of the object |
| `hpp/geometry_type_traits.hpp` | all (compile-time choices as functions) | |
| `hpp/arrow_extension_type.hpp` | all but the next column | `ToString`, `MakeArray`, copying; Arrow C++ itself, of which is assumed what `Faithful` (Spec/CppExtType.lean) says and that `ExportType` succeeds |
| `util.c`, `hpp/exception.hpp` | setting errors, throwing (C83) | version numbers; the text with `GEOARROW_DEBUG` |
| `scalar_udf.c` | all (C84) | argument arrays, which it ignores |
| `hpp/*` other | | wrappers that throw exceptions |
| nanoarrow | bitmap appends, the parts of array building, schema parsing and metadata that geoarrow calls | everything else |

Simplifications that hold everywhere: allocation succeeds (but for C73, C76, C77 and C82); 64-bit sizes do not wrap (arrays longer than 2^63 do not exist);
`double` is a bit pattern and comparisons follow IEEE 754 on patterns; error messages are dropped (except in C81, C83 and C84); pointers are offsets into
memory given as a function or list, so aliasing between input and output is not modelled.

Where C leaves a value indeterminate (fresh memory, padding bits of a bitmap, unspecified reader state after a visit) the model
takes an argument (`junk`, `raw`, `scratch`) over which theorems quantify.

## 5. Defects found

Each is proved of the model with a concrete witness or a general theorem, and named here with the property it refutes.

| property | what happens | theorem |
|----------|--------------|---------|
| C04 | a fixed-size list size above 2^31 wraps; a column without a format is dereferenced; `geoarrow.wkb` may be followed by anything | `C04_size_wraps`, `C04_missing_format`, `C04_wkb_name_prefix` |
| C06 | the size of a serialised node is computed in 32 bits | `C06_size_wraps` |
| C07 | fill values for missing dimensions of byte-swapped nodes are swapped, so not NaN | `C07_swapped_fill_not_nan` |
| C10 | a node array that is too short is read beyond its end | `C10_too_few_nodes_reads_outside` |
| C12, C13 | the WKB reader does not deduct coordinates from the remaining size and multiplies in 32 bits | `C12_long_ring_misread`, `C13_*` |
| C16, C58 | C++ parser: 64-bit sizes narrowed in one overload; undefined thousands digits and flag bits accepted | `C16_view_truncates`, `C58_undefined_thousands_accepted`, `C58_unknown_flags_accepted` |
| C22 | unmatched closes (WKB), callbacks before a feature (WKT), calls after an error or with unknown dimensions (builder) access tables out of range | `C22_*` |
| C24, C63 | after a null the size limit of WKT elements is not applied | `C24_limit_ignored_after_null` |
| C27 | a flat multipoint with empty and other points is not read back | `C27_mixed_flat_multipoint` |
| C29 | a space after the opening parenthesis of a flat multipoint is refused | `C29_space_in_flat_multipoint` |
| C30 | the geometry builder drops members of geometries without coordinates | `C30_nested_empties_lost` |
| C31 | a deep copy of byte-swapped coordinates keeps the swap flag | `C31_swapped_source` |
| C32, C56 | reserve and append do not check the buffer index; capacities derived from another buffer or from a misaligned size | `C32_mixed_use_overflows`, `C32_misaligned_overflows`, `C56_range_unchecked` |
| C35, C36 | native `Append`: counts wrap at 2^32; a ring that is too long is refused after offsets were written | `C35_too_many_vanish`, `C36_too_long_ring_leaks` |
| C37 | coordinates of rejected, unfinished or nested features end up in later ones | `C37_*_leaks` |
| C43 | rows of a failed batch come before those of the next | `C43_rows_of_the_failed_batch`, `C43_witness` |
| C44, C45 | serialising metadata counts backslashes but does not escape them | `C44_backslashes`, `C44_witness`, `C45_witness` |
| C46 | a NUL inside an array or object makes the parser loop for ever; one byte behind the text may be read | `C46_hangs`, `C46_reads_behind` |
| C47 | the CRS type is decided by the length of its name | `C47_by_length`, `C47_witness` |
| C52 | empty XYZ and XYM boxes in C++ are not empty | `C52_xyz_xym_not_empty` |
| C55 | the number of buffers is not checked at the root and for serialised arrays | `C55_serialized_buffers_unchecked`, `C55_root_buffers_unchecked` |
| C57 | digits beyond the precision are lost below one half, e.g. 0.1 + 0.2 is written as `0.3`; tiny numbers become `0`; negative zero loses its sign | `C57_lost`, `C57_tiny`, `C57_negative_zero` |
| C69 (no refutation) | in well-known text `12abc` is read as 12; `1e-400` and other numbers that round to zero are refused, as is a leading `+` | `C69_trailing`, `C69_range`, `C69_plus` |
| C70 (no refutation) | a builder that was handed empty memory (`NULL`) for a data buffer cannot be finished (`ENOMEM`); when memory that was handed over is asked to grow it is given back, but the builder's view keeps its address, and the builder can be finished with memory nobody wrote. Not modelled: the overload of `SetBufferWrapped` that takes a view passes the builder instead of its address and cannot be instantiated (`hpp/array_writer.hpp:36-46`) | `C70_empty_not_finished`, `C70_refused_growth` |
| C71 (no refutation) | C++ arrays compare the number of ordinates only: an XYM array is accepted as XYZ and m is delivered as z, and the other way round | `C71_axes_confused` |
| C72 | `it[k]` of an iterator over the ordinates of one dimension ignores the stride; `it++` of the same for unaligned sequences returns the first byte of the ordinate as a number. Not modelled, as they cannot be instantiated: `UnalignedCoordSequence::InitFrom` of an array view, `Slice` of byte-swapped sequences | `C72_subscript_ignores_stride`, `C72_post_increment_reads_a_byte` |
| C73 | after `ENOMEM`, the next append that succeeds replaces all nodes by uninitialised memory, and the old block is never freed; `GeoArrowGeometryResizeNodesInline(-1)` succeeds and the next append writes in front of the array; 2^58 nodes are granted as none. Also (by reading): the setters of nodes leave `flags` as they were | `C73_failure_loses_nodes`, `C73_failure_leaks`, `C73_negative_size`, `C73_size_wraps` |
| C74 | without Ryu and with precision 0, `100` is printed as `1` and `0` as nothing; without fast_float, texts of 64 characters or more are refused, `1e400` is read as infinity, `+1` is accepted and `12abc` refused, all unlike the default build | `C74_precision_zero`, `C74_precision_zero_nothing`, `C74_too_long`, `C74_overflow`, `C74_plus`, `C74_trailing` |
| C75 | `ArrayReader::SetArray` called twice never releases the first array; `ArrayReader` (like `ArrayWriter` and `ArrayBuilder`) has an implicit copy constructor, and destroying both copies is a double free; after a refused array a reader shows a mixture of the two arrays, and visiting may read out of bounds | `C75_leak`, `C75_copies`, `C75_refused_mixes` |
| C76 | After `ENOMEM` the builder's view keeps pointing to a block that nanoarrow's buffer has forgotten: it leaks; the next growth, or finishing, replaces what was accepted by the contents of fresh memory, without an error; a validity bitmap is dropped from the finished array; finishing after a refused finish hands out an array with less memory than it says. If `GeoArrowBuilderCoordsReserve` fails for one dimension after moving another, the next coordinate is written to freed memory | `C76_leak`, `C76_lost`, `C76_finish_exposes`, `C76_validity_lost`, `C76_overrun`, `C76_coords_use_after_free` |
| C77 | A refused growth of the data empties it while the offsets stay: elements accepted before are shown with the bytes of later ones, or beyond the data, and `GeoArrowWKBWriterFinish` returns 0. A refused growth of the bitmap keeps its number of bits: later nulls are shown as valid, earlier bits are those of fresh memory. A refused finish leaves an offset behind, so that the next element is empty. `ArrowArrayInitFromType` does not check its second allocation and writes through a null pointer. A view that is refused leaves an offset but is not counted, so that later elements are shifted | `C77_append_shifts`, `C77_lost`, `C77_exposes`, `C77_null_shown_valid`, `C77_refused_stays`, `C77_finish_retry`, `C77_finish_crash`, `C77_failed_finish_fills` |
| C78 | `kernel_visitor_start` overwrites the reader of an earlier start, which is never freed. `GeoArrowArrayWriterInitFromType` does not free its private data when it returns ENOTSUP. `start` of `as_geoarrow` switches on the visiting `push_batch` before it reads its options, so that a push after a start that failed follows a null pointer | `C78_restart_leaks`, `C78_unsupported_leaks`, `C78_push_after_failed_start` |
| C79 | `TypeTraits` is not specialised for the view types: its constants of `WKB_VIEW` say multilinestring, those of `WKT_VIEW` multipolygon, with coordinate type 11 | `C79_view_types_misread` |
| C80 | `WithCoordType`, `WithDimensions` and `WithGeometryType` of the Arrow C++ extension type keep the storage type of the old type, so that storing and loading the result gives the old type or fails; they throw instead of returning a failure; `RegisterAll` leaves out WKT and boxes; `Make` from a data type drops its edge type and CRS | `C80_with_parts_refuted`, `C80_with_geometry_type_refuted`, `C80_with_parts`, `C80_imported`, `C80_make_ignores_metadata_of_data_type` |
| C82 | The WKT writer loses and misshows elements after a refusal in the same ways as the WKB writer (C77) | `C82_lost`, `C82_exposes`, `C82_null_shown_valid`, `C82_refused_stays`, `C82_finish_retry`, `C82_finish_crash`, `C82_failed_finish_fills` |
| C84 | Releasing a scalar function or its factory does not set `release` to `NULL`, although `geoarrow_type.h:914, 936` says that it must; executing with a negative number of rows fails but leaves an array to release | `C84_release_kept`, `C84_refused_rows_fill` |
| C85 | The C reader takes every byte order mark but 1 for big-endian and looks only at the lower 16 bits of a type word; the C++ parser takes 24 bits and ignores thousands digits it does not know. So bytes are accepted by one and refused by the other, and some are different geometries for the two | `C85_thousands`, `C85_byte_order`, `C85_differ` |
| C65 | `SetFlatMultipoint` of the C++ writer sets the precision instead | `C65_outcome`, `C65_witness` |
| C67 | a CRS given to `WithCrs` is not checked: it can carry other metadata, loses backslashes, and is lost if its type says that there is none; `ToString(0)` prints an ellipsis for a type without a CRS | `C67_not_storable_witness`, `C67_short_limit_witness` |
| C68 | a kernel that was not started drops what is pushed to it and reports success; pushing to `as_geoarrow` after `start` failed for want of the option is undefined behaviour; a second `start` of `as_geoarrow` is refused but changes the type it reads; starting `unique_geometry_types_agg` again keeps the types seen before, unlike `box_agg`; `box_agg` finished before it is started yields a box of zeros | `C68_push_before_start`, `C68_push_after_failed_start`, `C68_refused_start_switches`, `C68_restart`, `C68_finish_before_start` |

Two observations that are not refutations of a listed property: `GeoArrowMakeType` gives geometry collections a number that is
no type (`C02_*`), and `as_geoarrow` on a schema without extension metadata outputs empty extension metadata (`C62_schema`).
