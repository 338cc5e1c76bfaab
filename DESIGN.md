# Formal model of joto/osmium in Lean 4

This document was written before the proofs and is kept current.  Part 1 states the trusted
base, part 2 the method, part 3 the plan per property, part 4 the disagreements between the
English property and the code that were found.

## 1. Trusted base

* The Lean 4.33.0 kernel.  Theorems depend at most on the axioms `propext`,
  `Classical.choice` and `Quot.sound` (checked with `#print axioms`); no axioms of our own, no
  `sorry`, no `native_decide`, no `bv_decide`.
* The reading of the C++ source: each definition of the model cites file and lines of /repo.
  The code was never compiled or run here; the fidelity of the model is by inspection only.
* Libraries are not modelled but appear as parameters or as small executable stand-ins:
  protobuf (de)serialisation and zlib (codec with a round-trip law), libxml2 writer and expat
  (the event sequence written is the event sequence read; Xml/Text has stand-ins for both that
  justify this for the texts of files), GEOS/OGR/shapelib predicates
  (oracle parameters), libc time functions (proleptic Gregorian calendar), IEEE doubles
  (rationals rounded to 53 bits), the standard containers and algorithms (lists).

## 2. Method

Layout: `lean/Verif/<Area>/Model.lean` (the code), `Spec.lean` (the independent
specification), `Lemmas.lean` (helpers) and `Props.lean` (the property theorems with their
non-vacuity examples; `Examples/PipeWitness.lean` applies the theorems about whole files with
multipolygons to one XML file and meets all their hypotheses; `Pbf/Witness.lean` and
`Storage/Witness.lean` do the same for other theorems with many hypotheses).  Undefined behaviour, assertion failures and exceptions are explicit
outcomes of the model.

Definitions of the model cite the lines of /repo they stand for (paths are relative to
`include/osmium` unless they start with another directory); definitions that only serve
statements, proofs or examples say so.  The definitions inside `*Lemmas.lean` and `*Props.lean`,
and the serialiser in `Common/Ser.lean` (used to show that a codec with the required law exists),
are not part of the model: they are notions used in statements and proofs.

## 3. Plan per property

* **C01 Positions are totally ordered** — `Position` = two `Int`s in int32 range (comparison only, no arithmetic). Case analysis + omega.
* **C02 Bounds are the exact hull of the positions they were extended with** — `Bounds.extend` as fold over a list; induction with the min/max hull as a separate list spec. Undefined positions: counterexample theorem.
* **C03 OSM objects can be sorted by id and version** — `objLt` on (id, version) with `Int.natAbs`; strict weak order proved when no id occurs together with its negation; counterexample for {n,-n}. INT64_MIN (`std::abs` undefined) is a distinct outcome.
* **C04 Area ids identify their origin** — ids as `Int` with explicit int64 overflow outcome; C++ truncating `/` and `%` are `Int.tdiv`, `Int.tmod`.
* **C05 Undirected segments are canonical** — record of two positions, constructor with swap.
* **C06 Tag lists keep order and look up the first match** — list of tags; operation histories as list of ops; refinement to 'first pair with key'.
* **C07 Coordinates survive the conversion to double and back** — IEEE double as rationals rounded to 53 bits (concrete `fl : ℚ → ℚ`, round to nearest even, unbounded exponent); error analysis over ℚ (Mathlib Rat/linarith).
* **C08 Object attribute setters** — object record + `setAttribute` returning `Except`; frame theorem over all attribute names; negation of the documented 'set to ""'.
* **C09 Adding a relation member is all or nothing** — member list + `addMember` returning (list, exception flag); negation witness (partial member stays) and positive theorem.
* **C10 ISO timestamps round-trip** — to_iso / parse_iso over a model of gmtime/timegm/strftime/strptime (POSIX civil calendar); round trip by omega-style calendar proof over all days.
* **C11 Delta encoding is lossless** — `Delta` with int64 overflow as undefined behaviour, and uint32 modular; encode/decode round trip by induction.
* **C12 Every recorded string is found in the string table** — StringTable as association list with 16-bit truncations; invariant over record histories; collision theorem beyond 65535 distinct strings.
* **C13 The string table is sorted by frequency** — multimap insertion as stable insertion by count; sortedness and permutation.
* **C14 Dense nodes survive writing and reading PBF** — dense group encoder/decoder at protobuf-message level; invariant per column; string ids resolved through C12.
* **C15 Nodes, ways and relations survive writing and reading PBF** — node/way/relation message encoder/decoder.
* **C16 A PBF file contains each written object exactly once, in order** — writer as state machine with flush conditions (size as oracle), reader over blocks; induction over object list.
* **C17 PBF blocks are bounded and never empty** — invariants of the writer state machine.
* **C18 PBF blob framing is lossless for every chunking of reads** — bytes as `List (BitVec 8)`; reads driven by an arbitrary chunk-size oracle; protobuf (de)serialisation and zlib as a codec parameter with round-trip law.
* **C19 PBF header checks** — decision logic over feature lists.
* **C20 The bounding box survives writing and reading PBF** — same `fl` as C07 with truncation: counterexample + error bound 1 (partial).
* **C21 Callback protocol of the readers** — trace of `call_after_and_before_on_handler`; grammar as independent recursive spec on runs; empty file: negation (init not called).
* **C22 StopReading ends the parse and still calls final** — handler as state machine that may throw StopReading at any callback; trace is prefix + final.
* **C23 An object kept by a handler is never modified by the reader** — heap model with reference counts; invariant that held objects are unchanged; XML lon/lat attribute on way/relation as counterexample.
* **C24 XML output is well nested** — writer emits element events; well-nestedness by stack checker.
* **C25 Objects survive writing and reading XML** — event-level reader/writer, decimal formatting/parsing of integers and of %.7f coordinates.
* **C26 Change files keep the kind of each change** — as C25 for change files.
* **C27 The XML reader never aborts on well-formed XML** — reader automaton on element trees; negation witnesses for both assertions; partial: documents of the OSM shape.
* **C28 Map-based id storage** — association list refinement.
* **C29 Table-based id storage** — list-backed table refinement.
* **C30 Vector-based id storage** — lower_bound binary search on list; sorted fill.
* **C31 Memory-mapped and array id storages never lose or mix values** — memory as partial map with mapped size; out of range is a distinct UB outcome.
* **C32 Ways get the coordinates of their nodes** — handler on top of an abstract id storage (refinement from C28-C31).
* **C33 End times in history processing** — handler state (last object) with trace; induction over runs.
* **C34 Range from history** — decision logic, interval overlap.
* **C35 A point-in-time extract contains one version per object** — composition; negation witness at the boundary instant; partial outside.
* **C36 Object store feeds back everything in order** — sorted insertion by the object order (std::set); feed_to trace.
* **C37 Merging a stored change set into a stream** — merge with store iterator; sortedness and permutation.
* **C38 Handler chains deliver every callback to every handler** — handlers as state machines; trace equality.
* **C39 The bounding box handler finds the bounding box of all nodes** — composition of C02, C21, C22.
* **C40 Relations are completed exactly once, exactly when all members have arrived** — assembler state machine; invariant linking need counter and missing members; assert violation is a distinct outcome.
* **C41 Objects not referenced by any relation are reported as such** — as C40, found flag.
* **C42 Incomplete relations are reported** — as C40, final filter.
* **C43 Closed ways become areas** — decision logic; empty way = UB outcome.
* **C44 Rings are closed chains of distinct ways** — complete_ring as fuel-free recursion on number of unused ways with validity oracle; soundness.
* **C45 Ring search is exhaustive and leaves no trace on failure** — completeness and restoration of the same function.
* **C46 Dangling ends are exactly the odd end nodes** — sorted end list, pair cancellation; parity by counting. dangling_closest: each pair is closed towards a closest remaining end, for any linearly ordered distances.
* **C47 Inner and outer rings** — matrix algorithm as written (in-place thinning loop); negation witness for 4-level nesting; partial theorem for nesting depth at most three levels.
* **C48 Tag comparison and merging in the multipolygon builder** — map-based comparison; negation for empty values, partial for unique keys and non-empty values.
* **C49 File type and encoding are detected from the file name** — string functions find/rfind/substr on `List Char`.
* **C50 Default suffixes round-trip** — as C49; negation (osc.pbf, dots in directories) and partial.
* **C51 File descriptors are owned by exactly one OSMFile** — state machine over objects with fd table.
* **C52 Tag filters: the first matching rule decides** — recursion over rule list; first-match spec.
* **C53 hstore output can be parsed back** — text generator and an independent hstore parser; round trip.
* **C54 WKB and hex WKB describe exactly the geometry** — bytes and an independent WKB parser; round trip.
* **C55 WKT describes exactly the geometry** — token level text.
* **C56 Polygons from ways** — constructor decision; negation for the reverse flag in WKT/WKB output.
* **C57 Shapefile geometries have no repeated points** — dedupe loop as written.
* **C58 Clipped attribute strings stay valid UTF-8** — bytes; valid-UTF-8 as independent predicate; out-of-bounds reads for narrow fields as UB outcome, characterised exactly.
* **C59 Shapefiles never exceed the size limit** — size accounting state machine with 32-bit unsigned arithmetic.
* **C60 Output format registry** — association list.
* **C61 A truncated PBF file yields a prefix of its objects** — the reader of C14–C20 on a prefix of the bytes the writer model produces; every truncation point.
* **C62 A damaged XML file yields a prefix of its callbacks and an exception** — SAX events up to the point of damage, then the parser's error.
* **C63 The area of a multipolygon relation** — `build` as a function of the members and of the answers of GEOS (functions of the environment); spec function `areaTags`.
* **C64 Tagged inner rings become areas of their own** — same theorem, first part of the result.
* **C65 Shapefile multipolygons consist of exactly the rings of the geometry** — recursive dump over the geometry tree with accumulated parts and vertices; spec cuts the vertex arrays at the part starts.
* **C66 Distances on the Earth** — haversine formula over ℝ (exact; rounding of doubles is not modelled); shown equal to the angle between unit vectors times the radius, metric laws from Mathlib's spherical triangle inequality. haversine_accuracy compares it with the exact points (x/10^7 degrees, true π) on a sphere of radius 6372797.560856 m: the rounding of the coordinates and of the constant for π/180 is at most 0.1 µm.
* **C67 What is in a PBF file if writing it is interrupted** — the `write` calls so far as a prefix of all calls, the operating system as an arbitrary function from call to result; negation for a short last write.
* **C68 Converting files keeps the objects** — the output handlers as state machines over arbitrary callbacks, composed with the readers; induction over the chain of conversions, from the round-trip theorems of C16 and C25 and the laws of `kept` and `xmlKept`; negation for files without objects.
* **C69 Every attribute goes to its shape** — the .dbf records beside the shapes, invariant by induction over the operations (Export/Table); Shapelib's rule for record numbers is part of the model.
* **C70 A debug dump shows everything** — the lines printed for every callback (Handler/Debug); injectivity of every kind of line, then of the concatenation by the first words of the lines; the text of bounds is a parameter without newline.
* **C71 The progress display shows the numbers of objects read** — state machine with the clock as environment (Handler/Progress), induction over the objects; rates exact instead of `float`, undefined conversions as UB outcome. progress_rates_partial says which rates and averages are shown.
* **C72 Any PBF file is read as the format says** — a declarative relation between messages and objects written after the format description (Pbf/MeaningSpec), for every block; the reader model is shown to produce the objects of that relation, by induction over columns, groups, blocks, blobs.
* **C73 PBF blocks are closed before they get too large** — invariant of the writer state: the counter is the sum of the sizes of the ways and relations in the block (Pbf/Size); message sizes are a function of the environment.
* **C74 Any OSM XML document is read as it says** — a declarative relation between events and objects (Xml/MeaningSpec: texts of numbers, times, coordinates; attributes by name; children; sections); the reader model is shown to make the calls of that relation by induction over the content (Xml/Meaning).
* **C75 The ring made from ways** — coordinates and repair as functions (Multipolygon/Repair), GEOS as an arbitrary oracle; the walk and "cut out" as separate specification; the bisection by induction; negation for rings whose beginning goes there and back.
* **C76 The area has the polygons of its rings** — a state monad with all geometry objects by address (Multipolygon/Memory); merging as a relation on the rings (Multipolygon/MemorySpec), the loops by induction with an exact description of the objects that exist; termination of the recursion by the number of rings that still have a polygon; negation: a pair without union stops merging.
* **C77 Geometry objects** — the same model; use of an object that does not exist is undefined behaviour; what exists at the end minus what the destructors delete; negations: the symmetric difference of touching rings is leaked, an exception from GEOS leaks the polygons.
* **C78 From the members of a relation to areas with geometry** — the parts of the builder (search, repair, nesting, tags, geometry objects) put together as one function `buildWhole` (Multipolygon/Whole); the theorems about the parts are joined: rings_arranged shows that the nesting yields what the geometry part relies on, whole_areas describes the result exactly, whole_rings and whole_corners follow the coordinates from the nodes to the corners, whole_nesting says which rings become outer and inner in terms of how many rings contain them. GEOS may throw at each question which ring contains which; exactly the questions that are asked are described (`Asked`, tryRings_spec in Multipolygon/NestingThrows). Simplification: rings have at most 2^30 nodes where coordinates are described.
* **C79 Texts reach scripts and come back unchanged** — the three conversions of javascript/unicode.hpp over a model of ICU's strict UTF-8/UTF-16 conversion into a buffer of given size and of V8 strings as lists of 16-bit units (Javascript/Unicode). UTF-16 is specified separately; decoders are proved to be inverse to it.
* **C80 A script sees the object as it is** — the accessors of javascript/wrapper as functions from objects and property names to JavaScript values (Javascript/Wrapper). V8's rules used: named handlers are not asked for array indexes; `Integer::New` takes an int32; numbers are doubles; `String::New` reads a C string. The WKT and WKB theorems of C54/C55 are carried to the script's values.
* **C81 A script's callbacks are called for every event, in order** — the JavaScript handler (javascript/handler.hpp) over an abstract script engine: any state, any effect of a call, any effect of loading (Javascript/Script). The handler is one more `Handler` of the C08 model, so that its calls are a function of the event stream. `script_located_partial` joins it with the coordinates handler (C51) for osmjs with one pass and a location store. V8 itself is the abstract engine.
* **C82 What osmjs does follows from its options** — `main` of osmjs as a function from the options `getopt_long` gives, the other arguments and the environment to an outcome: exit code, or what is run (Javascript/Osmjs).
* **C83 Reading a file twice yields the located file and exactly its multipolygons** — the coordinates handler, the second pass of the assembler and the builder in one chain, as osmjs with `-m` and the example programs set them up (Multipolygon/Pipeline; Handler/LocatedFile for the first link). The calls of the last handler are compared with the protocol for the located file and with a list of areas computed from the file alone. Partial: sorted files without repeated objects, ids below 2^62, ways with nodes, tags with values.
* **C84 Scripts get what they write into their shapefiles and text files** — the wrappers of the exporters and export/csv.hpp (Javascript/Exports), on top of the table model of C50 (Export/Table) and the text conversions of C80. Histories of calls are lists; the rows after any history are compared with the calls by a relation between attributes and cells (`CellOf`, `RowOf`), text files with the printed lines and with what a reader of columns finds (`csvColumns`). Partial: attributes of kinds text, integer, logical; the errors below.
* **C85 The density picture shows how many nodes are where** — the example program nodedensity (Examples/NodeDensity): `int` arithmetic with overflow as undefined behaviour, doubles as in Float/Model, the counters as a function of the index. The picture after any calls is compared with counts of nodes per pixel, where the pixel of a position is described with exact rational arithmetic (`DrawnAt`). Partial: sizes up to 32767 and 0 <= MIN < MAX, SIZE/180 pixels for a degree; the picture as the list of its pixels (gd and PNG are not modelled).
* **C86 osmium_relation_members describes every relation once, with its members** — the example program (Examples/RelationMembers) on top of the assembler of Relations: the lines printed, for every order of work of the sort (a relation `MembersMain`). The description (`Spec.describe`) is a function of the relation and the file only. Partial: files in the usual order with at least one node, way and relation, different ids per type; used memory is not modelled.
* **C87 osmium_toshape writes exactly the post boxes and the roads of a file** — the example program (Examples/ToShape) on top of the handler for coordinates (C32), the geometry for shapefiles and the tables of Export/Table. Rows are described in `Spec.PostBoxRow` and `Spec.RoadRow`; the two files are compared with the list of post boxes and located roads of the file (`toshape_partial`, and for the storages the program uses `toshape_stores_partial`). Partial: all roads end at nodes in the file, ids exactly represented as double.
* **C88 osmium_find_bbox prints the smallest box with all nodes of the file** — the example program (Examples/Small) on top of the handler of C33 and the printing of doubles by `operator<<` with any precision (Examples/NumberG, which generalises the model used for WKT: the printed number is within half a unit of the last digit). Partial: the sides are those of the smallest box up to 0.000501 degrees, for files that begin with their nodes.
* **C89 osmium_time prints the numbers of objects in the file** — the example program (Examples/Small); induction over the runs of calls. Proved for all files of less than 2^64 objects, sorted or not.
* **C90 osmium_to_postgis makes a row for every node with tags** — the example program (Examples/ToOgr) as a list of operations on the table (start, row, commit); the text of the tags is compared with an independent reader of hstore texts (`Spec.hstoreParse`). Proved for all files and any database that accepts the rows.
* **C91 osmium_toogr makes features of exactly the post boxes and the roads** — the example program (Examples/ToOgr) on top of the handler for coordinates. Partial: files in the usual order, ids up to 2^53, missing nodes are not left out (see section 4).
* **C92 osmium_mpdump describes every area of the file once, with its origin** — the handler of the example program (Examples/Areas) behind the second pass of the assembler (C83); every area made for a relation is traced to the relation or to one of its member ways. Partial: as C83 (files in the usual order, tags with values, small ids), ids of relations are not 0, and if GEOS fails on a relation there is no list.
* **C93 osmium_toogr2 makes features of exactly the buildings** — as C92. Partial: as C92, and ids below 2^30 (see section 4).
* **C94 osmium_range_from_history extracts the current data from a history file** — the composition of reader, EndTime, RangeFromHistory and output (Examples/Versions): the objects that pass are the last versions; a writer only depends on the objects, so its file is that of a stream of just these, and the round trips of C14 and C24 apply. Partial: an extract that both formats can store (C59), and deleted objects are in it (see section 4).
* **C95 osmium_store_and_debug dumps the OSM file with the changes applied** — the composition of ObjectStore, ApplyHandler (C36, C37) and Debug (Examples/Versions). Partial: the dump has all versions of both files (see section 4).
* **C96 Areas own their geometry** — a heap of geometries, areas that have the address of one, and histories of constructions, copies, assignments and destructions (Osm/AreaMemory); refinement to a specification in which geometries are values, by an invariant (each geometry that exists and was not replaced belongs to one area). Partial: copying areas without geometry, and geometries that are replaced (see section 4).
* **C97 What a script has exists as long as it may use it** — OSM objects, geometries and Javascript objects as three sets that refer to each other, histories of callbacks, uses, releases and garbage collections (Javascript/Lifetime); an invariant between the memory and a bookkeeping that knows only the history. Partial: scripts that do not keep objects and geometries beyond their callback, which nothing enforces (see section 4).
* **C98 osmium_convert converts the file it is told to and touches nothing else** — `main` as a function of options, names and a disk (Examples/ConvertMain); the readers, writers and compression programs are parameters, then those of C68. Specification in terms of the last `-f`/`-t`, the documented suffixes (C49) and the file with a name. Partial: the input is there and not the output, compressed data has a name (see section 4).
* **C99 osmium_debug shows all that is in a file** — the composition of reader, EndTime and Debug (Examples/DebugMain), from C33 and C70. Partial for the same texts as C70. The bounding box with the text of C121 at the default precision of the stream (Examples/DebugBounds): shown up to a thousandth of a degree (see section 4).
* **C100 No PBF file makes the reader write outside its buffers** — the writes the reader makes as a list of (buffer, offset, length) computed along the model of C18 (Pbf/Buffers), with and without assertions; `InBuffer` is the specification. Partial: with assertions compiled in (see section 4).
* **C101 A storage uses only its own memory, and gives it back once** — storages as objects over an address space in which each mapping has a serial number (Storage/Memory), any failure of `mmap`/`mremap`; invariant over operation sequences. Partial: no `clear` of a mapped storage, growth does not fail (`Tidy`; see section 4).
* **C102 Reading a file gives back what it opened, and fails if the data could not be fetched** — `Input::read` over the world of file descriptors of C51 (OsmFile/Read). Partial: `parse` returns; the second half is false (see section 4).
* **C103 Child processes have the right standard streams, and closing a file never hangs** — `execute` and `close` over tables of descriptors of the program and all its children (OsmFile/Child): lowest free descriptor, pipe ends with numbers, `fork` copies the table; a child ends when nobody holds the other end of its pipe. Invariant over all sequences. Partial: the program has its own standard streams, at most 30 descriptors (see section 4).
* **C104 The assembler reports that all members are available exactly once** — the second pass of the assembler (Relations/Model) with its count of wanted types (Relations/Available), induction over the blocks of the input. Partial: every enabled type occurs in the input, each in one block (see section 4).
* **C105 Coordinates given in degrees are stored as the nearest multiple of a ten millionth of a degree** — `double_to_fix` over rounded rationals (Float/Degrees): rounding to doubles and rounding to integers are monotone and odd, the error is bounded.
* **C106 Reading XML does not depend on the portions in which data arrives, and truncated files are reported** — the loop of `XML::parse` over any sequence of results of `read` (Xml/Chunks), expat is an abstract incremental parser with the law that portions can be joined (`Streaming`; a small one is given as example); proved by induction over the portions, together with the reader of C21.
* **C107 What a handler has no callback for does not change what its other callbacks get** — the reader with the empty overloads (Pbf/Skip) next to the one that decodes everything (Pbf/File); a relation between the events of both is shown for groups, blocks and files by induction, then for handlers that stop. Where decoding a left out object would fail, the two readers differ (`pbf_skip_unnoticed`), so the claim is partial.
* **C108 The bytes of an XML file give back the texts that were written, and a cut file is noticed** — what libxml2 writes for the calls of the writer, with its escaping and indentation, and a parser for documents in ASCII, character by character (Xml/Text).  The parser follows the writer call by call (Xml/TextRun), the calls of the writer make one element (Xml/TextFile); with C25 and C106 this gives the round trip through bytes.  Partial: control characters are written but cannot be read.
* **C109 What is in an XML file if writing fails or is interrupted** — the output buffer of libxml2 with arbitrary points of writing and arbitrary answers of the system (Xml/Flush); what was put is always split between file and buffer, by induction over the calls; with C108 what reading makes of the file.  Partial: the last write is not checked.
* **C110 Shapefiles made with osm2shape.js contain exactly what the configuration says** — the script and its example configuration, function by function, with the objects of V8 it uses as tables and the exceptions it relies on (Javascript/Osm2shape).  What a configuration means is read off its statements in the specification; the state of the script follows it by induction over the statements, the calls of each shapefile by induction over rules and objects; with C80 (tags) and C84 (shapefiles) this gives the contents of the files.  Partial: values that are not texts, names of inherited functions and keys that are numbers.
* **C111 The example scripts count and list objects correctly** — the scripts statement by statement, the counters as the own properties of a V8 object in the order they were made, with what it inherits (Javascript/Scripts).  Induction over the nodes shows that the counters are the counts of the specification in the order of first use; the lines with C80 (tags) and C84 (CSV).  Partial: names of `Object.prototype`.
* **C112 shape_export.js exports exactly the points of interest, roads and areas it lists** — the callbacks with the look-ups in `node_tags` and the regular expression for speeds (Javascript/ShapeExport).  Each callback is shown to make exactly the calls of the specification, where a speed is characterised by its form, not by the expression; induction over the objects and C84 give the contents of the files.  Partial: repeated keys, keys that are numbers, names of `Object.prototype`.
* **C113 Geometries that scripts add become shapes with the points of the objects** — the function that chooses the kind of shape, the two functions `add` of the wrapper and what `this.geom` and the other properties give (Javascript/ScriptShapes).  The shapes by C57 and C65; a run of a script with geometries is a run with shapes (simulation), so that C84 applies; a whole file with C32 for the positions and C112 for the records.  Partial: consecutive nodes with the same id at different places, nodes without position.
* **C114 The example script exports all land use areas of a file, once** — the callback for areas and the two passes of osmjs with this script (Javascript/ScriptAreas).  C83 gives what comes out of the assembler; that `final` comes last by induction over the calls, so that no area is added to a closed file; the records by C112 and the shapes by C113, for a list of calls in which areas may be anywhere.  The tags of areas by C76.  Partial: as C83 and C112.
* **C115 The example scripts list all objects of a file completely** — the callbacks of objects.js and objects_2pass.js as functions from the bytes printed so far to those printed afterwards (Javascript/Listing), on top of the models of the wrappers and of `print`; what V8 makes of a number that is no integer is a parameter.  The lines are given by a specification on texts (ListingProps).  That the output determines the objects is proved by cutting it at newlines, at the lines that do not begin with a space, and at the first and last separators of each line (ListingRead; C10, C54 and C55 for times and geometries).  Whole files by C32 and C83 (ListingFile).  Partial: repeated keys, keys that are numbers, ids beyond 2^53; texts with newlines and keys or roles with `=` cannot be told apart.
* **C116 The area script exports and lists exactly the areas of a file** — the callbacks of area.js as functions on the shapefile and the bytes printed so far (Javascript/AreaScript), on top of the shapefile model of C113/C114 and `print` of C115.  Each area becomes one addition and one line; the run over all calls splits into the run of the additions and the lines (AreaScriptProps), whole files by C83.  Partial as C83; ids below 2^52.
* **C117 The callback test script shows each callback exactly as documented** — the callbacks of callback_test.js with their four flags (Javascript/AreaScript); the specification keeps the first of each kind of a list of names (CallbackTestProps).  Invariant: the flags are the kinds that have been seen.  Whole files by C28 and C83.  The theorem on whole files is partial as C83.
* **C118 The geometry script shows the geometry of every object in all formats** — the callbacks of testgeom.js, `JSON.stringify` for numbers and arrays, and the functions `toArray`, `toWKT` and `toHexWKB` of scripts (Javascript/GeomScript) on top of C55 and C115.  The specification is the list of labelled lines whose texts are read back by the decoders of WKT and WKB (GeomScriptProps).  The texts that GEOS writes for multipolygons are parameters.  Whole files by C83; the theorem on them is partial as C83.
* **C119 What the progress program leaves on the terminal** — the texts of `update_display` and `final` and `main` of osmium_progress (Handler/ProgressScreen) on top of C71; the specification has a small terminal with carriage return, newline and the two escape sequences for the cursor, as wide as needed.  The line is the displays laid over each other; widths of counts grow, and a rate is at most 35 columns wide, which is what the last display wipes (ProgressScreenProps).  Partial: rates that are undefined (C71) are excluded, and in between a narrower display leaves the end of a wider one.
* **C120 Reported memory use** — `used_memory` of the six storages (Storage/Usage) on the states of C28-C31 after any history of calls (UsageProps), and of the assembler on its state after the first pass with the text it prints (Relations/Usage); the sizes of the types are parameters.  Partial: `StlMap` reports 0, and a mapping of a file that was larger before reports less than the file has.
* **C121 Printed positions, bounding boxes and tags can be read back** — the three `operator<<` (Osm/Printed) with the printing of doubles of C88 for any precision; the specification reads numbers in parentheses and asks for the closest coordinate (PrintedProps).  Partial: with the default precision of six digits different positions have the same text, as have tags with `=` in the key.
* **C122 The OGR programs make the output they are asked for or report that they could not** — the three programs as sequences of requests to a library that answers each one depending on all before (Examples/OgrPrograms).  That the programs heed the library is an invariant over the calls; what is asked for is reduced to C90, C91 and C93 (OgrProgramsProps).  Partial: as C91 and C93; osmium_to_postgis does not look at the results of SQL commands and transactions.
* **C123 An exception of GEOS does not change what was delivered before it** — the second pass call by call up to the first exception (Multipolygon/Interrupted: `secondTrace`).  It is the prefix of the events of the whole pass (`secondTrace_eq`); the trace of C40 is split at the event that fails (`trace_split`), and the part before it is a trace for the part of the file before a way.  For osmium_mpdump: Examples/AreasInterrupted.  Partial: files as in C83.
* **C124 Messages of the multipolygon assembler change no area and name the relations that lack ways** — the second pass with its messages (Multipolygon/Messages: `noisyPass2`), in which `all_members_available` really removes the finished relations and prints the numbers of the others; a null pointer there is a failed assertion.  Invariant: a null pointer is only left where nothing is needed (`NullFinished`); after the end of the ways no entry refers to a relation, so it does not matter which are kept (`noisy_done`).  The relations left are those of C42 for the calls up to the end of the ways.  For level 2 and above (Multipolygon/Announcements) the lines are sorted by the events they belong to (`hooks_perm`) and each event follows its lines directly (`Blocks`).  The standard output of osmium_toogr2 is composed of these lines and those of C120.  Partial: files in the usual order with at least one way; what is printed before an exception is left out.
* **C125 A multipolygon relation is built or it is reported why not** — `buildReport` (Multipolygon/Whole) is the builder with the reason that `build` prints; `buildWhole` is its first component, so that all theorems about areas are about the same function.  `whole_report` pairs each outcome with its report; areas made from ways have even ids and those of relations odd ones, so the relation's own area can be told from the others (`HasAreaOf`).  The lines of the second pass are those of the completed relations (`reportTrace_ok`, C42).  When an exception of GEOS ends the second pass, the relations treated before it are those of C123, and the same is proved for these (`reports_before_exception_partial`).  Partial: as C83, no relation with the id 0 (its area cannot be told from that of a way with this id, C04); after an exception of GEOS nothing is claimed about the reports.
* **C126 What the repair of multipolygons invents is announced** — the `…Says` functions (Multipolygon/RepairMessages) give what each function of the search prints; they follow the same branches as `completeRing`, `makeOneRing`, `ringLoop`, `joinDangling` and `makeRings` and take the state from these.  By induction over the search what is printed falls into what is said in vain and what is said about the ring that is found (`completeRing_says`, `ringLoop_says`); the marks tell that the latter is about the way the ring has in the result.  Partial: that there are no other announcements needs a GEOS that always tells the direction of a ring (`repair_announced_in_vain`).  The text of the exceptions is not modelled.
* **C127 osmium_toshape reports what it leaves out** — `lineSays`, `toshapeWaySays` and `toshapeSays` (Examples/ToShapeMessages) give what is printed, in parallel to the functions of C57 and C87 (`toshape_calls` is C87 with the ways as they arrive).  The specification lists the lines per road from pairs of neighbouring nodes (`roadLines`).  Partial: as C87; roads that do not end in the file are not reported (`toshape_unnamed`).
* **C128 A PBF file means the same however the system hands out its bytes** — `readN`, `readBlobHeader`, `readBlob`, `readBlobs` (Pbf/Blob) take the number of bytes of each `read` from an arbitrary function; induction on the data that is left (`pbf_pieces`).  Failing calls are in C130.
* **C129 Programs that read their file twice see the same data twice, or fail** — `Sources`, `readOnce` (open, parse, close) and `TwoPass` (Examples/TwoPass) model the programs from their arguments to their end; `work` is the composition of the passes from C86, C92, C93, C120 and C124.  The handler of the first pass skips nodes and ways in PBF files (C107) and stops after the relations; `readBy_pass1` shows that nothing is lost by this.  Partial: names with the documented meaning (C49); for the output what C86 and C92 leave out; with standard input the programs fail (`twopass_stdin`).
* **C130 A read error is never taken for the end of a PBF file** — Pbf/ReadErrors models the three loops around `read` once more with a third outcome of each call, and `parse` on top of them; related to the model without failures by induction on the data that is left (`pbf_read_errors`, `pbf_returned_whole`, `pbf_no_errors`).
* **C131 Programs that read each file once report on all of the data they are given, or fail** — `onePass` and `storeDebugProgram` (Examples/OnePass) model `main` on top of `Sources.readOnce` (C129); `findBboxProgram` with the callbacks FindBbox lacks and its `StopReading` (`readBy_bbox`).  Partial: names with the documented meaning (C49); for the output what C88 and C95 leave out; two files from standard input (`store_debug_stdin`).
* **C132 osmium_range_from_history extracts from the file it is told to, and touches nothing else** — `rangeProgram` (Examples/RangeProgram) models `main` on the files of C98; it is shown to do what osmium_convert does with the two handlers in front of the output (`rangeProgram_convert`), so that the arguments of C98 apply, and is combined with C94 (`range_program_objects_partial`).  Partial: names with the documented meaning (C49), an input that exists and is another file than the output.
* **C133 Exceptions of GEOS while polygons are made are reported and change nothing else** — Multipolygon/PolygonMessages writes the program of Multipolygon/Memory once more with its output to stderr (a state monad with a log).  `noisy_same` is the refinement: without the log it is the same program.  The lines follow from the invariants of C77; for inner rings that do not touch along a line the log is computed exactly (`allLines`).
* **C134 Strings in PBF files end at the first NUL character** — `Pbf/CStrings.lean` is the reader of `Pbf/File.lean` with all strings of the string table taken as C strings
  (`cutBlock`, justified by `sidStr_cut_eq`).  Each function of the reader is shown to commute with cutting where it succeeds; the
  callbacks are related by a prefix relation (`CutRel`), so that files with errors are covered.  (1) follows because cutting
  twice is cutting once, (2) because the meaning of a block (C72, which says what is missing)
  commutes with cutting (`groups_cut`), so that the limits on lengths only count what is before the NUL, (3) by induction over the blobs.
* C135: `Pbf/FullReader.lean` puts the variants of the PBF reader of C107, C130 and C134 into one (`pbfParseAll`).  Failing reads:
  the blobs of a file with failing reads are a prefix of all blobs (`readBlobsE_agrees`), and reading more blobs only adds calls
  (`parseBlobsAll_append`).  Left out types: `SkipRel` of C107 by induction over the blobs.  NULs: `CutRel` of C134, also for
  handlers that leave out types.  `pbf_all_none` ties it to the reader of C134.
* C136: `Convert/ReadFailure.lean` runs the reader of C135 with the outputs of C68 as handlers.  An output that fails with the first
  calls fails in the same way with all calls (`writeAs_prefix_error`), so C135 gives (1), and C106 for XML files (`convert_xml_failure`, for any
  parser that is `Streaming`); (2) is C68 on top of (1); (3) holds since
  the PBF output only appends (`pbfStep_grows`).  Not modelled here: what a throwing call of the output has written itself (C67).

## 4. Disagreements between the property and the code

Each is proved as a theorem (name in parentheses) unless marked "by reading".

* C02: an undefined position, once added, pollutes the bounds (`bounds_undefined_position_pollutes`).
* C03: the object order is no strict weak order if an id and its negation occur
  (`objLt_not_strictWeakOrder`); id -2^63 is undefined behaviour (`objLt_ub`).
* C04: an area made from relation 0 claims to come from a way (`area_from_relation_zero`).
* C08: a too long user name does not set the name to "" as documented (`set_user_not_cleared`).
* C09: a too long role leaves a member with an empty role behind (`addMember_not_atomic`).
* C10: years before 1000 and after 9999 do not round-trip (`iso_out_of_range`).
* C11: ids of 2^62 and more overflow the delta encoding (`delta_overflow`).
* C12, C13: more than 65535 different strings collide (`string_table_collision`,
  `string_table_corruption`); counts wrap at 65536 (`string_table_not_sorted`).
* C15: a rejected relation is nevertheless written (`pbf_rejected_relation_written`); changing
  settings within a block corrupts data (`pbf_dense_switch_loses_node`,
  `pbf_granularity_switch_moves_node`, `pbf_fine_date_granularity_loses_timestamps`).
* C16: objects of different types within a block are regrouped (`pbf_mixed_types_reordered`).
* C73: nodes do not count towards the size of a block, so only the number of objects bounds blocks
  of nodes (`pbf_nodes_not_counted`); neither does the string table (by reading).
* C72: times in units of less than a second are read as 0 (`pbf_milliseconds_lost`); a group without
  objects is an error (`pbf_empty_group`).
* C18: truncation within the 4-byte length field of a blob is taken for the normal end of the file
  (`truncation_in_length_unnoticed`).
* C20: bounds in PBF headers can shift by one unit (`bbox_roundtrip_fails`).
* C21: for a file without objects `init` is never called (`allCalls_empty`).
* C23: lon/lat attributes on a way or relation modify a node the handler has kept
  (`xml_kept_node_modified`).
* C25: XML loses users without uid, members of unknown type and far timestamps
  (`xml_user_without_uid_lost`, `xml_other_member_type_lost`, `xml_far_timestamp_unreadable`).
* C27: well-formed documents can reach both assertions and undefined conversions
  (`xml_assertion_reachable`, `xml_coordinate_undefined`, `xml_coordinate_out_of_range`).
* C29-C32: size overflow (`sparseTable_overflow`), out of order ids (`vectorStore_out_of_order`), id
  outside the mapping (`fixedArray_bounds`, `mmap_limits`), id -2^63 (`coordinates_min_id`).
* C34, C35: a version that ends exactly at the start of the range is included
  (`range_end_included`), so two versions can be in a point-in-time extract
  (`point_in_time_two_versions`).
* C36, C37: a stored object with the negated id of another is dropped
  (`objectStore_negative_id_dropped`); stored objects of a type that is not in the stream are not
  merged (`apply_loses_objects`).
* C39: only the first block of nodes counts (`findBbox_second_block`).
* C40-C42: two versions of a member complete a relation that lacks another member
  (`assembler_two_versions`), a version after completion violates an assertion
  (`assembler_version_after_completion`), members of types that are not enabled never arrive
  (`assembler_type_not_enabled`), objects in a second block are misreported
  (`assembler_second_block`).
* C43: a way without nodes is undefined behaviour (`wayArea_empty`).
* C44, C45: the search stops at the first way that cannot be closed (`makeRings_stops_early`).
* C47: an inner ring can be given to a second outer ring (`rings_wrong_parent`).
* C48: empty values and repeated keys break the comparison (`same_tags_empty_value`,
  `same_tags_repeated_key`).
* C49, C50: names without suffix, "http" (`file_settings_no_suffix`); ".osc.pbf"
  (`default_suffix_change_pbf`); directories with dots (`without_suffix_dot_directory`).
* C51: standard input is closed twice (`fd_std_closes_other`), leaks (`fd_leaks`), children waited
  for twice (`child_waited_twice`).
* C55, C56: `LINESTRING()` (`line_wkt_empty`); the direction of polygons is ignored in WKT and WKB
  (`polygon_wkt_ignores_reverse`).
* C57: only the last node's position is checked (`shp_undefined_position`), equal references count
  as repetition whatever their position (`shp_same_ref_other_position`).
* C58: fields of width 0, and of width 2 for texts that start with a character of two bytes, read outside the buffer (`truncate_narrow`, exactly these: `truncate_undefined_iff`).
* C59: a field added after the first shape breaks the size limit (`late_field_exceeds_limit`).  By
  reading: negative field widths are accepted; a failing open after a rollover leaves a null handle.
* C65: a multipolygon without polygons is undefined behaviour (`shp_multipolygon_total`).
* C67: a short last write goes unnoticed (`pbf_short_write_unnoticed`).
* C68: a file without objects cannot be converted to XML (`convert_empty_xml`) and becomes a PBF file
  without header (`convert_empty_pbf`).
* C69: a shape without attributes blocks attributes of later shapes (`attribute_after_bare_shape`); a
  value added before any geometry goes to the first shape (`attribute_before_geometry`).
* C70: nothing is escaped (`debug_dump_ambiguous_bar`, `debug_dump_ambiguous_newline`).
* C71: step 0 is undefined behaviour (`progress_step_zero`), a negative step means almost never
  (`progress_step_negative`), objects in the same microsecond lead to an undefined conversion
  (`progress_same_microsecond`), averages are wrong without ways or relations
  (`progress_average_without_ways`).
* C75: a ring of 6 or 7 coordinates that begins there and back makes GEOS throw on a line of one point
  and is not repaired (`repair_gives_up`).
* C76: a pair of touching inner rings without a union of one outline stops the merging of the other
  pairs (`merging_stops`).
* C77: the symmetric difference of touching inner rings is never deleted (`leak_iff_touching`: exactly
  in these cases something is left over after success); if GEOS throws there or in the last validity check the
  exception passes through and the polygons made so far are left over (`exception_leaks`).
* **C79**: a text from a script of more than 2·characters units is cut without notice (`text_from_script_cut`); a text of exactly `characters` characters outside the basic plane, documented as the maximum, is refused (`text_of_maximal_size_refused`); printing a text of 2^29-1 or more units overflows an `int` (`text_printed_overflow`).
* **C80**: ids from 2^53 are not distinguished (`script_ids_collide`); versions from 2^31 become negative (`script_version_wraps`); the values of tags whose key is an array index are undefined for scripts although the key is enumerated (`script_index_keys`); a key longer than 1024 units finds the tag whose key is its beginning (`script_long_key`); indexes outside of `nodes` and `members` are undefined behaviour (`script_list_out_of_range`); `toWKB()` always returns two characters (`script_wkb_useless`).
* **C81**: the callbacks object is fetched before the script is loaded; a script that replaces it (`Osmium.Callbacks = {...}`) gets no calls and no message (`script_replaced_callbacks`).
* **C82**: with `-2` and a store but without `-m` osmjs warns that multipolygons have to be enabled with -m, and makes them all the same (`osmjs_two_pass_assembles`); with `-2` but without a store it dereferences a null pointer (`osmjs_two_pass_without_store`); `-i` without a variable HOME constructs a string from a null pointer (`osmjs_include_without_home`).
* **C84**: a text of which the 256th UTF-16 unit is the first half of a pair makes `add` throw (`script_text_refused`); an object whose geometry is illegal is dropped and `add` still answers 1 (`script_add_illegal`); fields of type "double" cannot be filled: `add` throws (`script_double_refused`); `add` after `close` uses a null pointer (`script_add_closed`); tabs and ends of line in texts are not quoted, so different calls give the same text file (`csv_not_quoted`); lines printed after `close` are lost silently (`csv_of_script_partial`).
* **C85**: pictures of less than 180 lines have everything in one pixel (`density_one_pixel`); if SIZE is no multiple of 180 the world does not fill the picture (`density_unused`); MIN = MAX divides by zero (`density_equal_limits`); sizes from 32768 on overflow an `int` (`density_too_large`); size 0 is not refused and uses foreign memory (`density_no_lines`); counts stop at 65534 (`density_picture_partial`).
* **C86**: relations without members are never described (`members_empty_relation`); incomplete relations are only described if the file has nodes, ways and relations (`members_incomplete_lost`); in files that are not sorted an assertion can fail (`members_unsorted`).
* **C87**: one road whose last node is not in the file, or without nodes, ends the program with an exception that is not caught (`toshape_missing_node`); another node that is missing becomes a point at 214.7483647 degrees (`toshape_hole`); a missing negative node id reads past the end of the mapped file (`toshape_negative`).
* **C88**: only six significant digits are printed, so that a node can be outside of the box (`find_bbox_rounded`); a file without nodes gives a box at 214.748 degrees (`find_bbox_no_nodes`).
* **C91**: a road gets a line even if its nodes are not in the file, through points at 214.7483647 degrees (`toogr_missing_node`); ids above 2^53 can change (`toogr_big_id`).
* **C93**: ids have 32 bits in the layer, although way ids are doubled: buildings get the same id or a negative one (`toogr2_ids`).
* **C94**: nothing looks at `visible`: an object that was deleted is in the extract, and in a file that is not a history file it exists again (`range_from_history_deleted`).
* **C95**: a new version does not replace the old one (`store_and_debug_keeps_old`), a deletion looks like any other change (`store_and_debug_deleted`), objects of a type that is not in the OSM file are lost (`store_and_debug_loses`).
* **C96**: the copy constructor and the assignment call `clone()` on a geometry that may be a null pointer (`area_copy_undefined`), and the assignment and the setter forget the old geometry without deleting it (`area_replaced_leaks`).
* **C97**: Javascript objects have the plain address of an OSM object, and geometries of ways and areas a reference to it: a script that keeps one and uses it after the object is gone uses freed memory (`script_keeps_object`, `script_keeps_geometry`).
* **C98**: an unknown format is taken for PBF, the exception `main` waits for is never thrown (`convert_unknown_format`); the output is opened, and so emptied, before the input: a missing input file destroys it (`convert_destroys_output`), the same file as input and output loses its data (`convert_same_file`); `-f osm.gz` with standard input or `-t osm.gz` with standard output cannot work, although the help text says so, since the child process is given an empty name (`convert_compressed_std`).

* **C10**: times whose year does not fit into an `int` (beyond about 2^56 seconds, which a PBF file can contain) are undefined behaviour in `to_iso`: `gmtime` returns NULL (`to_iso_defined`). The parts of the model that write texts (XML, dumps, scripts) use `toIso` without this case.
* **C100**: the size a compressed blob has after decompression is taken from the file and checked only by an assertion; without assertions a file can make zlib write beyond the buffer (`pbf_buffers_need_assertions`), with them it ends the program.
* **C101**: `clear` of the mapped storages unmaps the memory but keeps the pointer: the destructor unmaps again, whatever is there then (`storage_cleared_twice`, `storage_cleared_other_used`); if growing fails all values are lost (`storage_failed_growth`), and the file of a file storage is never closed (`storage_file_stays_open`).
* **C102**: if `parse` throws the reader is not deleted, so the file stays open and the child is not waited for, for ever (`read_throw_leaks`); the status of the child is thrown away by the destructor, so that a PBF file that could not be downloaded is read as an empty one (`read_result`, `read_failed_download`).
* **C103**: the child closes descriptors below 32 only: with 31 files or more it keeps the other end of its own pipe, and closing the file waits for ever (`close_many_files`, `close_many_files_reading`); if standard output is closed compressing always fails after the output file was emptied (`child_closed_stdout`); if standard error is closed too, messages of `zcat` become data (`child_errors_in_data`); if the program is not installed `exit` writes text the parent has printed but not yet sent into the pipe, to be read as data (`child_missing_program`).
* **C104**: `all_members_available` is called by the `after_…` callbacks, and these come only for types that occur: if the input has no object of an enabled type it is never called, and incomplete relations are neither reported nor assembled (`available_never`).
* **C102**: the expat parser is freed only at the end of a successful run: every error and every handler that stops at an object leave it behind (`xml_parser_leaks`, `xml_parser_leaks_stop`).
* **C107**: errors in objects of a type the handler has no callback for are not noticed in PBF files: the same file is refused for one handler and read without complaint for another (`pbf_skip_unnoticed`). XML files are always decoded completely.
* **C108**: texts with control characters (below U+0020 other than tab, newline and carriage return) are written without complaint, but the file cannot be read again (`xml_bytes_control`, `xml_bytes_roundtrip_fails`).
* **C109**: `XML::final` does not look at the result of `xmlFreeTextWriter`, which writes what is still in the buffer (everything, for documents of less than about 4000 bytes).  If this write fails or is short, the end of the file, or all of it, is lost without an exception (`xml_store_lost`).
* **C110**: a rule whose value is a number (`way('lanes', 2)`) is accepted, but its `match` stays undefined: every callback for this type ends with an ignored exception when it comes to this rule, so the rules after it are never looked at (`osm2shape_number_value`).  `output('toString')` and other names of `Object.prototype` are accepted although there is no such shapefile, with the same effect (`osm2shape_inherited_name`).  Keys that are numbers are never found (`osm2shape_index_key`).  `config.js` has ids in columns of type integer, which wrap at 2^31, for areas from ways at 2^30 (`osm2shape_id_wraps`).  `exit` (lines 43 and 191) is not a function in osmjs.
* **C111**: count.js counts keys that are the name of a function of `Object.prototype` (`constructor`) one too few, and writes `NaN` if there is only one (`count_inherited`); `__proto__` is never counted (`count_proto`).  osm2csv.js writes `undefined` for a tag that is missing, the same as for a tag with this value (`osm2csv_undefined`).
* **C112**: a node with `amenity=constructor` becomes a point of interest with the source text of a function as its type (`shape_export_inherited`).  The column for the speed has three digits: one road with `maxspeed=1000` ends the program with an exception (`shape_export_fast_road`).
* **C113**: a node without a position is stored as a point at (214.7483647, 214.7483647) (`script_node_without_position`), and a way of which a node other than the last is missing goes through this point (`script_way_without_position`).  Adding an area without rings is undefined (`script_area_without_rings`).
* **C115**: the second value of a repeated key is not printed, the first one is printed twice (`listing_repeated_key`); the values of keys that are numbers are printed as `undefined` (`listing_number_key`); different tags have the same lines if keys contain `=` or values contain newlines, and a tag can look like a member (`listing_ambiguous`).
* **C116**: an area made of a way with an id from 1073741824 on has a wrong (negative) id in the shapefile, or the program ends with an exception (`area_script_large_id`).
* **C119**: a display that is more than three columns narrower than one before it leaves the end of the old one in the line, e.g. `[2] (1 Nodes per second)   nd)` (`progress_screen_remains`); the last display is always clean.  If the file cannot be read the cursor remains hidden (`osmium_progress_abort`; the comment in progress.hpp says so).
* **C120**: `StlMap::used_memory` always returns 0 (`stlMap_used_wrong`; the code calls it a dummy).  `MmapFile::used_memory` reports the mapped bytes; if the file given already was larger, more is used on disk (`mmapFile_used_less`).
* **C121**: with the default precision of a stream, and with nine digits, different positions are printed alike (`position_text_collision`, `position_text_collision_nine`); the tags `a=b`=`c` and `a`=`b=c` are printed alike (`tag_text_collision`).
* **C122**: osmium_to_postgis ends with status 0 even if the transaction cannot be committed (`to_postgis_commit_ignored`).  The data source is made before the input is opened: if the input cannot be read an empty one remains (`toogr_unreadable`).
* **C99**: the bounding box is printed with the six digits of a stream that nobody has changed (positions of nodes get seven digits after the point): `debug_bounds_ambiguous` has two boxes with the same dump.
* C124: the warning about missing ways is printed when the ways end.  If a file has no ways at all, this is never reported and there is no warning, although all multipolygon relations with ways lack them (`no_warning_without_ways`).
* C124: osmium_toogr2 prints `Used memory: ` and the result of `used_memory`, which prints twelve lines itself, in one expression; before C++17 the language does not say which comes first, and the outputs differ (`toogr2_stdout_order`).
* C126: when GEOS throws in `isCCW` on a ring that was just repaired, "Successfully repaired an invalid ring" is printed, then the exception, and the ring is dropped (`repair_announced_in_vain`).
* C127: a road whose last node has no position ends osmium_toshape with an exception that does not name the way, and nothing is printed about it (`toshape_unnamed`); the branch of `create_line_or_polygon` for ways without nodes is never reached, since these have no position.
* C129: with `-` (or an empty name) osmium_mpdump, osmium_toogr2 and osmium_relation_members always fail: `OSMFile` closes descriptor 0 after the first pass, reading in the second pass fails, and nobody catches the exception (`twopass_stdin`, `programs_stdin`).
* C131: `osmium_store_and_debug - -` always fails, like the programs of C129: reading the first file closes descriptor 0 (`store_debug_stdin`).
* C132: osmium_range_from_history opens (and empties) the output before the input: a mistyped input name destroys the output (`range_program_destroys_output`), and with the same name for both the history is lost (`range_program_same_file`).
* C133: the line "Exception while checking intersection of rings" names neither the relation nor the rings, so nobody can find the data it is about (by reading; `polygon_messages` shows that all these lines are the same).
* C134: text after a NUL in a string of a PBF file is lost without an error; different keys of one object can become equal
  (`pbf_nul_text_lost`).
* C136: a conversion to PBF that ends with an exception leaves a file that is read without an exception, as a file with fewer objects
  (`convert_leaves_looks_whole`).

## 5. What is modelled

Modelled, function by function (model files in parentheses):

* osm/*.hpp (Osm, Attr), osm/position, node coordinates to and from double (Float)
* utils/*.hpp (Strings, Time, Osm, Tags)
* input.hpp, input/pbf.hpp, input/xml.hpp (Input, Pbf, Xml): parsing and callbacks.
* output.hpp, output/pbf.hpp, output/xml.hpp (OsmFile/Factory, Pbf, Xml)
* osmfile.hpp (OsmFile): names, types, file descriptors, children
* handler.hpp, handler/coordinates_for_ways, endtime, find_bbox, range_from_history, debug, progress (Handler)
* storage/*.hpp (Storage)
* relations/*.hpp, multipolygon/*.hpp (Relations, Multipolygon)
* tags/*.hpp (Tags), geometry.hpp, geometry/*.hpp (Geometry), export/shapefile.hpp (Export), export/csv.hpp (Javascript/Exports)
* javascript/unicode.hpp, javascript/handler.hpp, the wrappers for OSM objects, geometries, positions and exporters, osmjs/osmjs.cpp and the scripts osm2shape.js with config.js, count.js, osm2csv.js, time.js, shape_export.js, objects.js, objects_2pass.js, area.js, callback_test.js and testgeom.js in osmjs/js (Javascript)

Not modelled: the libraries of section 1, geometry/null.hpp (which writes nothing), the example programs (except osmium_convert: Convert and Examples/ConvertMain, osmium_debug: Examples/DebugMain, nodedensity: Examples/NodeDensity, osmium_relation_members: Examples/RelationMembers, osmium_toshape: Examples/ToShape, osmium_find_bbox, osmium_time: Examples/Small, osmium_to_postgis, osmium_toogr: Examples/ToOgr and Examples/OgrPrograms, osmium_mpdump, osmium_toogr2: Examples/Areas, osmium_range_from_history, osmium_store_and_debug: Examples/Versions, as whole programs Examples/RangeProgram and Examples/OnePass, and osmium_progress: Handler/ProgressScreen; osmium_sizeof only prints sizes of types), the wording of verbose
output, memory exhaustion. Of GEOS geometries copying and destruction are modelled for areas (C96) and the multipolygon builder (C77) only.
Of javascript/template.hpp the lifetimes are modelled (C97), not the registration of accessors.
