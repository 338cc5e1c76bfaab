{"id": "C01", "title": "Positions are totally ordered", "statement": "Comparing positions with < gives a strict total order that agrees with ==: exactly one of p<q, p==q, q<p holds, and < is transitive. Sorting or storing positions in ordered containers is therefore always well defined, undefined positions included.", "quantifier": "all triples of positions, i.e. all 32-bit coordinate pairs, including the invalid marker", "why_tests_cant": "transitivity and trichotomy range over 2^192 coordinate triples; tests sample a handful", "anchors": ["include/osmium/osm/position.hpp: operator==, operator<"]}
{"id": "C02", "title": "Bounds are the exact hull of the positions they were extended with", "statement": "After extending an empty Bounds with any finite sequence of defined positions, bottom_left is the coordinate-wise minimum and top_right the coordinate-wise maximum of the sequence; the result does not depend on the order or multiplicity of the positions, and the bounds are defined iff the sequence is non-empty.", "quantifier": "all finite sequences of positions in every order (undefined positions: separate statement)", "why_tests_cant": "order-independence over all permutations of arbitrarily long sequences cannot be enumerated", "anchors": ["include/osmium/osm/bounds.hpp: Bounds::extend, Bounds::defined", "include/osmium/osm/position.hpp: Position::defined"]}
{"id": "C03", "title": "OSM objects can be sorted by id and version", "statement": "The < operator on nodes, ways, relations and areas is a strict weak ordering in which objects are ordered by absolute id and then version, so that std::sort and std::set on them are well defined.", "quantifier": "all triples of objects (64-bit ids incl. negative ids, 32-bit versions)", "why_tests_cant": "std::sort and std::set have undefined behaviour for a comparator that is not a strict weak order; that is a property of all triples", "anchors": ["include/osmium/osm/node.hpp: operator<", "include/osmium/osm/way.hpp: operator<", "include/osmium/osm/relation.hpp: operator<", "include/osmium/osm/area.hpp: operator<"]}
{"id": "C04", "title": "Area ids identify their origin", "statement": "The id of an Area built from a way or a relation is unique over both kinds, and from_way() and orig_id() recover kind and id of the origin, for positive and negative ids.", "quantifier": "all way and relation ids in the 64-bit range for which the doubled id does not overflow", "why_tests_cant": "injectivity over the whole id range; negative ids, zero and the overflow boundary are exactly the untested points", "anchors": ["include/osmium/osm/area.hpp: Area::Area(const Relation&), Area::Area(const Way&), from_way, orig_id", "include/osmium/osm/area.hpp: sgn"]}
{"id": "C05", "title": "Undirected segments are canonical", "statement": "UndirectedSegment(p,q) and UndirectedSegment(q,p) are equal, first() is never greater than second(), the unordered pair of end points is preserved, and < on undirected segments is a strict total order agreeing with ==.", "quantifier": "all pairs (triples) of segments over all positions", "why_tests_cant": "canonicality and ordering laws quantify over all position pairs", "anchors": ["include/osmium/osm/undirected_segment.hpp: UndirectedSegment, operator<", "include/osmium/osm/segment.hpp: Segment, operator=="]}
{"id": "C06", "title": "Tag lists keep order and look up the first match", "statement": "A tag list behaves like a sequence: adding appends, iteration yields tags in insertion order, and looking up a key yields the value of the first tag with that key, or null exactly if no tag has the key; later additions never change an existing lookup result.", "quantifier": "all sequences of add/clear operations and all keys", "why_tests_cant": "all operation histories and duplicate keys; unit tests fix a few lists", "anchors": ["include/osmium/osm/tag_list.hpp: TagList::add, get_value_by_key, clear, size", "include/osmium/osm/tag.hpp: Tag"]}
{"id": "C07", "title": "Coordinates survive the conversion to double and back", "statement": "For every 32-bit fixed point coordinate, converting it to a double degree value and setting a position from that double yields the same fixed point coordinate again; positions are never shifted by reading lon()/lat() and writing them back.", "quantifier": "all 2^32 coordinate values, IEEE double rounding to nearest at each operation", "why_tests_cant": "2^32 values with floating point rounding error at each; rounding analysis is needed, samples prove nothing", "anchors": ["include/osmium/osm/position.hpp: double_to_fix, fix_to_double, Position::lon, Position::lat"]}
{"id": "C08", "title": "Object attribute setters", "statement": "set_attribute(name, value) changes exactly the attribute named and no other; unknown names change nothing; a user name that is too long or an unparsable timestamp raises an exception and leaves the object unchanged (for the user name the documentation promises it is set to the empty string).", "quantifier": "all objects, all attribute names, all values, all sequences of such calls", "why_tests_cant": "frame conditions ('nothing else changes') over all attribute names, values and histories", "anchors": ["include/osmium/osm/object.hpp: Object::set_attribute, user, timestamp, visible, id, version, changeset, uid", "include/osmium/osm/types.hpp: string_to_*"]}
{"id": "C09", "title": "Adding a relation member is all or nothing", "statement": "add_member(type, ref, role) appends exactly one member with these values at the end; if the role is too long it throws and the member list is unchanged.", "quantifier": "all member lists, types, refs and roles, all call sequences", "why_tests_cant": "exception safety at every history", "anchors": ["include/osmium/osm/relation_member_list.hpp: add_member", "include/osmium/osm/relation_member.hpp: RelationMember::role", "include/osmium/osm/relation.hpp: get_member"]}
{"id": "C10", "title": "ISO timestamps round-trip", "statement": "Formatting any non-zero timestamp as ISO 8601 text and parsing that text again yields the same timestamp; the text has the form yyyy-mm-ddThh:mm:ssZ with the correct Gregorian calendar date.", "quantifier": "all timestamps from year 0 to the end of year 9999 (the format has room for four year digits), including leap years and negative times", "why_tests_cant": "hundreds of billions of instants; calendar arithmetic is a classic boundary-bug area", "anchors": ["include/osmium/utils/timestamp.hpp: to_iso, parse_iso, timestamp_format"]}
{"id": "C11", "title": "Delta encoding is lossless", "statement": "Feeding any sequence of values to a Delta variable (starting after construction or clear()) and summing up the returned deltas on the other side reproduces the sequence exactly.", "quantifier": "all finite sequences of 64-bit (or 32-bit unsigned) values for which the subtraction does not overflow; unsigned: all sequences", "why_tests_cant": "all sequences and the overflow boundary", "anchors": ["include/osmium/utils/delta.hpp: Delta::update, Delta::clear", "include/osmium/input/pbf.hpp: parse_dense_node_group, parse_way_group, parse_relation_group (decoding side)"]}
{"id": "C12", "title": "Every recorded string is found in the string table", "statement": "After recording any sequence of strings and storing the table, the final id obtained for each recorded string refers to exactly that string in the stored table, different strings have different ids, and no recorded string has id 0.", "quantifier": "all finite sequences of strings recorded in one block", "why_tests_cant": "the id type is 16 bit wide: the failure needs more than 65535 distinct strings in one block, far outside unit tests", "anchors": ["include/osmium/utils/stringtable.hpp: record_string, store_stringtable, map_string_id, clear"]}
{"id": "C13", "title": "The string table is sorted by frequency", "statement": "The stored string table has the empty string at index 0, contains every recorded string exactly once, and is ordered by non-increasing number of occurrences so that frequent strings get small ids.", "quantifier": "all finite sequences of recorded strings with at most 65535 distinct strings and at most 65536 occurrences of each", "why_tests_cant": "sorting property for all multisets of strings; the 16 bit counter wrap is beyond test sizes", "anchors": ["include/osmium/utils/stringtable.hpp: store_stringtable, string_info operator<"]}
{"id": "C14", "title": "Dense nodes survive writing and reading PBF", "statement": "For any sequence of nodes written into one PBF block in dense format and read back, ids, coordinates, tags (in order), version, changeset, timestamp, uid, user and (for history/change files) visibility are the same.", "quantifier": "all sequences of at most 8000 nodes with in-range attributes, any tags, any string table contents within the 16 bit limit", "why_tests_cant": "column-wise delta encoding, tag delimiters and string-id remapping interact; only a proof covers all combinations", "anchors": ["include/osmium/output/pbf.hpp: write_dense_node, map_string_ids, store_primitive_block", "include/osmium/input/pbf.hpp: parse_dense_node_group"]}
{"id": "C15", "title": "Nodes, ways and relations survive writing and reading PBF", "statement": "For any way, relation or (non-dense) node written to a PBF block and read back, the id, metadata, tags, node references, and members (type, ref, role, in order) are the same; relations with a member type other than n, w, r are rejected by the writer with an exception.", "quantifier": "all objects with in-range attributes, arbitrary numbers of tags, node refs and members", "why_tests_cant": "unbounded lists with delta encoding and string-id remapping", "anchors": ["include/osmium/output/pbf.hpp: write_node, write_way, write_relation, apply_common_info, map_common_string_ids", "include/osmium/input/pbf.hpp: parse_node_group, parse_way_group, parse_relation_group"]}
{"id": "C16", "title": "A PBF file contains each written object exactly once, in order", "statement": "However many objects are written and wherever block boundaries fall, the objects read back from the file are, for each object type, exactly the written ones in the written order; if the input was sorted by type the complete sequence is identical.", "quantifier": "all finite sequences of objects, all positions of block flushes (by count and by size)", "why_tests_cant": "off-by-one losses at block boundaries only show at multiples of 8000 objects or 95% of 32 MB", "anchors": ["include/osmium/output/pbf.hpp: node, way, relation, final, check_block_contents_counter, store_primitive_block", "include/osmium/input/pbf.hpp: parse, parse_group"]}
{"id": "C17", "title": "PBF blocks are bounded and never empty", "statement": "Every data block written contains at least one and at most 8000 objects, state of one block (string table, delta values, counters) never leaks into the next, and after final() no object remains buffered.", "quantifier": "all finite sequences of write operations", "why_tests_cant": "state reset must be checked for every history, not one", "anchors": ["include/osmium/output/pbf.hpp: check_block_contents_counter, store_primitive_block, final"]}
{"id": "C18", "title": "PBF blob framing is lossless for every chunking of reads", "statement": "The sequence of (type, content) blobs written is read back identically whatever number of bytes each read() returns; a file cut off at a blob boundary yields exactly the complete blobs; a cut anywhere else is reported as an error.", "quantifier": "all sequences of blobs, all patterns of short reads, all truncation points, compressed and uncompressed", "why_tests_cant": "short reads and truncation points are schedule-dependent and unbounded", "anchors": ["include/osmium/output/pbf.hpp: store_blob", "include/osmium/input/pbf.hpp: read_blob_header, read_blob, convert_from_network_byte_order, parse"]}
{"id": "C19", "title": "PBF header checks", "statement": "A PBF file is accepted iff all required features are among the supported ones and the presence of the HistoricalInformation feature fits the expected file type; files written by the PBF writer for a type are always accepted when read as that type, and a history file read as plain OSM file (and vice versa) is rejected.", "quantifier": "all lists of required features and all expected file types and writer settings", "why_tests_cant": "all feature lists in all orders", "anchors": ["include/osmium/input/pbf.hpp: parse (header part)", "include/osmium/output/pbf.hpp: init"]}
{"id": "C20", "title": "The bounding box survives writing and reading PBF", "statement": "Bounds in the metadata written to a PBF header are read back unchanged.", "quantifier": "all defined bounds (all 32-bit coordinates)", "why_tests_cant": "the value goes through two floating point operations and a truncating conversion; the failing coordinates are sparse", "anchors": ["include/osmium/output/pbf.hpp: init (bbox)", "include/osmium/input/pbf.hpp: parse (bbox)"]}
{"id": "C21", "title": "Callback protocol of the readers", "statement": "A handler is called as: init exactly once first; then for each maximal run of objects of one type before_X, the objects of the run in file order, after_X; and final exactly once at the very end. init is called before all others, final after all others.", "quantifier": "all sequences of objects of all three types in any order, including the empty file", "why_tests_cant": "a grammar over unbounded, arbitrarily interleaved inputs", "anchors": ["include/osmium/input.hpp: call_after_and_before_on_handler, call_final_on_handler", "include/osmium/input/pbf.hpp: parse", "include/osmium/input/xml.hpp: parse, start_element, end_element"]}
{"id": "C22", "title": "StopReading ends the parse and still calls final", "statement": "If a handler throws StopReading from any callback during parsing, no further init/before/object/after callback is made, final is called exactly once, and read() returns normally.", "quantifier": "all inputs and all callbacks at which the exception is thrown", "why_tests_cant": "every crash point (callback index) of every history", "anchors": ["include/osmium/input/pbf.hpp: parse", "include/osmium/input/xml.hpp: parse", "include/osmium/handler.hpp: StopReading"]}
{"id": "C23", "title": "An object kept by a handler is never modified by the reader", "statement": "If a handler keeps the shared pointer passed to a node/way/relation callback, the object it points to keeps its value for as long as the pointer is held, whatever is read afterwards; every callback sees a freshly initialised object.", "quantifier": "all input files and all patterns of handlers keeping and dropping pointers", "why_tests_cant": "aliasing bugs depend on retention patterns over time", "anchors": ["include/osmium/input.hpp: prepare_node, prepare_way, prepare_relation", "include/osmium/input/xml.hpp: init_object", "include/osmium/input/pbf.hpp: parse_node_group"]}
{"id": "C24", "title": "XML output is well nested", "statement": "For any sequence of init, node, way, relation, final callbacks that follows the protocol, the XML output is one well nested document: every opened element is closed in the right order, one root element, and in change files every object is inside exactly one create, modify or delete section.", "quantifier": "all object sequences, all three file types", "why_tests_cant": "the create/modify/delete section state machine depends on unbounded history", "anchors": ["include/osmium/output/xml.hpp: init, node, way, relation, final, open_close_op_tag, write_meta, write_tags"]}
{"id": "C25", "title": "Objects survive writing and reading XML", "statement": "For OSM and history files, writing any sequence of objects as XML and reading it again yields the same callbacks with the same objects, up to the documented normalisation (anonymous users; visible flag only in history files).", "quantifier": "all sequences of objects with in-range attributes and all tags/refs/members", "why_tests_cant": "unbounded nested lists, number formatting and parsing for all 64-bit ids and all 32-bit coordinates", "anchors": ["include/osmium/output/xml.hpp: XML", "include/osmium/input/xml.hpp: start_element, end_element, init_object, check_tag"]}
{"id": "C26", "title": "Change files keep the kind of each change", "statement": "When a change file is written and read again, objects have the same visibility (deleted objects are read as not visible, created and modified ones as visible), whatever order creations, modifications and deletions come in.", "quantifier": "all sequences of visible/deleted objects with all versions", "why_tests_cant": "section state depends on the whole history on both the writing and the reading side", "anchors": ["include/osmium/output/xml.hpp: open_close_op_tag", "include/osmium/input/xml.hpp: start_element, end_element, init_object (m_in_delete_section)"]}
{"id": "C27", "title": "The XML reader never aborts on well-formed XML", "statement": "Reading any well-formed XML document either succeeds or throws an exception; the internal 'should never be here' assertions are not reachable. Elements with unknown names are ignored.", "quantifier": "all well-formed element trees", "why_tests_cant": "all trees of all depths", "anchors": ["include/osmium/input/xml.hpp: start_element, end_element"]}
{"id": "C28", "title": "Map-based id storage", "statement": "After any sequence of set operations the map-based storage returns for each id the value last set and signals an error for ids never set.", "quantifier": "all operation sequences, all ids", "why_tests_cant": "refinement over all histories", "anchors": ["include/osmium/storage/byid/stl_map.hpp: StlMap::set, operator[], clear"]}
{"id": "C29", "title": "Table-based id storage", "statement": "After any sequence of set operations the growing table storage returns for each id the value last set, and the undefined value for ids never set (also outside the current size); growing never loses values.", "quantifier": "all operation sequences, all ids for which id + grow size does not overflow", "why_tests_cant": "growth boundaries and all histories", "anchors": ["include/osmium/storage/byid/sparse_table.hpp: SparseTable::set, operator[], clear"]}
{"id": "C30", "title": "Vector-based id storage", "statement": "If values are set in increasing id order, the binary-search vector storage returns for each id the value set and the undefined value for all others.", "quantifier": "all strictly increasing id sequences and all looked-up ids; out-of-order and duplicate fills as counterexamples", "why_tests_cant": "binary search correctness for all lengths", "anchors": ["include/osmium/storage/byid/vector.hpp: Vector::set, operator[]"]}
{"id": "C31", "title": "Memory-mapped and array id storages never lose or mix values", "statement": "Using the mmap based and fixed size array storages inside the range that is mapped, each id returns the value last set; growing keeps all values; which accesses are out of bounds is determined exactly by the ids set so far.", "quantifier": "all operation sequences, all ids", "why_tests_cant": "remapping at growth boundaries, out-of-range accesses are undefined behaviour that tests may not expose", "anchors": ["include/osmium/storage/byid/mmap_anon.hpp: MmapAnon::set, operator[]", "include/osmium/storage/byid/mmap_file.hpp: MmapFile::set, operator[]", "include/osmium/storage/byid/fixed_array.hpp: FixedArray::set, operator[]"]}
{"id": "C32", "title": "Ways get the coordinates of their nodes", "statement": "With the CoordinatesForWays handler, each way node has, when the way callback returns, the position of the last node with that id seen before the way, for positive and negative ids, and positions of positive and negative ids are never mixed up.", "quantifier": "all sequences of node and way callbacks, all ids", "why_tests_cant": "history dependent; all id signs", "anchors": ["include/osmium/handler/coordinates_for_ways.hpp: node, get_node_pos, way"]}
{"id": "C33", "title": "End times in history processing", "statement": "The EndTime handler forwards every object version exactly once and in order, with its end time set to the timestamp of the directly following version of the same object, and unset for the last version.", "quantifier": "all sequences of object versions of each type under the callback protocol", "why_tests_cant": "look-behind-by-one logic with flushes at the end of each type; all histories", "anchors": ["include/osmium/handler/endtime.hpp: EndTime::node, way, relation, after_nodes, after_ways, after_relations"]}
{"id": "C34", "title": "Range from history", "statement": "The RangeFromHistory handler forwards exactly those object versions whose validity interval overlaps the requested time range; all other callbacks are forwarded unchanged.", "quantifier": "all object versions and all ranges", "why_tests_cant": "interval boundary cases for all values", "anchors": ["include/osmium/handler/range_from_history.hpp: RangeFromHistory::node, way, relation"]}
{"id": "C35", "title": "A point-in-time extract contains one version per object", "statement": "Combining EndTime and RangeFromHistory with from == to == t on a history sorted by id and time yields for each object at most one version, namely the one valid at time t.", "quantifier": "all histories with increasing timestamps, all t", "why_tests_cant": "depends on interval semantics at every boundary instant", "anchors": ["include/osmium/handler/endtime.hpp: EndTime", "include/osmium/handler/range_from_history.hpp: RangeFromHistory"]}
{"id": "C36", "title": "Object store feeds back everything in order", "statement": "An ObjectStore filled in any order feeds each distinct object (by id and version) back exactly once, ordered by id and version, grouped as nodes, ways, relations with the full callback protocol.", "quantifier": "all insertion sequences of objects", "why_tests_cant": "all insertion orders; relies on the comparison being a strict weak order", "anchors": ["include/osmium/storage/objectstore.hpp: ObjectStore::node, way, relation, feed_to", "include/osmium/osm/node.hpp: operator<"]}
{"id": "C37", "title": "Merging a stored change set into a stream", "statement": "ApplyHandler merges a sorted input stream with the objects of the store: all objects of both are forwarded exactly once, in sorted order, and all callbacks come in protocol order.", "quantifier": "all sorted streams and all store contents", "why_tests_cant": "merge boundaries for all interleavings", "anchors": ["include/osmium/storage/objectstore.hpp: ApplyHandler"]}
{"id": "C38", "title": "Handler chains deliver every callback to every handler", "statement": "A Sequence of two handlers calls the first then the second with every callback and its arguments; a Forward handler passes every callback on unchanged; nesting is associative in its effect.", "quantifier": "all callback sequences, all handlers (as state machines)", "why_tests_cant": "all handlers and all callback histories", "anchors": ["include/osmium/handler.hpp: Forward, Sequence"]}
{"id": "C39", "title": "The bounding box handler finds the bounding box of all nodes", "statement": "After reading any file with the FindBbox handler, the bounds are the hull of the positions of all nodes before the first end of a node block, and reading stops after the nodes.", "quantifier": "all sequences of nodes with defined positions", "why_tests_cant": "all files; interplay of early stop and final", "anchors": ["include/osmium/handler/find_bbox.hpp: FindBbox", "include/osmium/osm/bounds.hpp: extend"]}
{"id": "C40", "title": "Relations are completed exactly once, exactly when all members have arrived", "statement": "In the second pass of the relations assembler, complete_relation is called for a relation iff it has at least one wanted member and all wanted members have been read, exactly once, at the moment the last one arrives, and with each wanted member in the slot of its position.", "quantifier": "all sets of relations (with duplicate members, shared members, members of all types) and all orders of objects in the second pass", "why_tests_cant": "all relation/member graphs, all arrival orders", "anchors": ["include/osmium/relations/assembler.hpp: add_relation, find_and_add_object, HandlerPass2", "include/osmium/relations/relation_info.hpp: add_member, need_member, has_all_members"]}
{"id": "C41", "title": "Objects not referenced by any relation are reported as such", "statement": "In the second pass, the *_not_in_any_relation callback is made for exactly those objects that no kept member of any relation refers to.", "quantifier": "all relation sets and objects", "why_tests_cant": "binary search over all sorted lists; all id collisions between types", "anchors": ["include/osmium/relations/assembler.hpp: find_and_add_object, HandlerPass2::node/way/relation, sort_member_infos"]}
{"id": "C42", "title": "Incomplete relations are reported", "statement": "After the second pass, removing assembled relations leaves exactly the relations for which at least one wanted member is missing, in their original order.", "quantifier": "all relation sets and all second-pass inputs", "why_tests_cant": "needs an invariant over all histories", "anchors": ["include/osmium/relations/assembler.hpp: clean_assembled_relations, find_and_add_object", "include/osmium/relations/relation_info.hpp: has_all_members"]}
{"id": "C43", "title": "Closed ways become areas", "statement": "The multipolygon assembler makes an area for a way iff the way is closed with at least four nodes and is not a member of an assembled relation; relations are considered iff tagged type=multipolygon or type=boundary, and only their way members are wanted.", "quantifier": "all ways (also without nodes) and all relations", "why_tests_cant": "decision logic over all tag lists and node lists incl. the empty way", "anchors": ["include/osmium/multipolygon/assembler.hpp: relation, keep_member, way_not_in_any_relation", "include/osmium/osm/way_node_list.hpp: is_closed"]}
{"id": "C44", "title": "Rings are closed chains of distinct ways", "statement": "Every ring found by the multipolygon builder is a cyclic chain of distinct unused ways, each traversed forwards or backwards, in which each way starts at the node where the previous one ended; no way is used in two rings.", "quantifier": "all sets of ways and all outcomes of the geometric validity checks", "why_tests_cant": "backtracking search over all graphs", "anchors": ["include/osmium/multipolygon/builder.hpp: complete_ring, make_one_ring, ring_is_complete"]}
{"id": "C45", "title": "Ring search is exhaustive and leaves no trace on failure", "statement": "If any chain of unused ways continuing from the given end closes the ring and passes the geometric check, the search finds one; if none exists it reports failure, terminates, and all ways are unused again as before the call.", "quantifier": "all sets of ways, all states of used flags, all geometric oracles", "why_tests_cant": "completeness and termination of a backtracking search over all graphs", "anchors": ["include/osmium/multipolygon/builder.hpp: complete_ring"]}
{"id": "C46", "title": "Dangling ends are exactly the odd end nodes", "statement": "The hole detection reports exactly those end nodes that occur an odd number of times among the unused ways; their number is always even, so the pairing in repair mode never runs out of partners.", "quantifier": "all lists of ways", "why_tests_cant": "parity argument over all lists; the code asserts it", "anchors": ["include/osmium/multipolygon/builder.hpp: find_and_repair_holes_in_rings"]}
{"id": "C47", "title": "Inner and outer rings", "statement": "Given the geometric containment relation between rings (a nesting), rings contained in an even number of other rings become outer rings, the others become inner rings of exactly the outer ring that directly contains them.", "quantifier": "all numbers of rings, all nestings of any depth, all orders of rings", "why_tests_cant": "deep nestings in all orders of rings; tests use two or three rings in natural order", "anchors": ["include/osmium/multipolygon/builder.hpp: determine_inner_outer_rings"]}
{"id": "C48", "title": "Tag comparison and merging in the multipolygon builder", "statement": "Two tag lists count as the same iff they contain the same tags after ignoring the keys type, created_by, source and note; an object is untagged iff all its keys are ignored ones; merging copies exactly the non-ignored tags whose key is missing, never changes existing ones, and reports a conflict iff a key exists with another value.", "quantifier": "all pairs of tag lists", "why_tests_cant": "all tag lists incl. duplicate keys and empty values", "anchors": ["include/osmium/multipolygon/builder.hpp: same_tags, untagged, merge_tags, ignore_tag"]}
{"id": "C49", "title": "File type and encoding are detected from the file name", "statement": "Constructing an OSMFile from a name determines type and encoding from the suffix after the first dot of the last path component as documented; stdin/stdout and URLs get their defaults; directories with dots do not matter.", "quantifier": "all file names", "why_tests_cant": "all strings", "anchors": ["include/osmium/osmfile.hpp: OSMFile::OSMFile(const std::string&), set_type_and_encoding, default_settings_for_*"]}
{"id": "C50", "title": "Default suffixes round-trip", "statement": "Building a file name with the default suffix for type and encoding and constructing an OSMFile from that name gives the same type and encoding again.", "quantifier": "all type/encoding combinations and all base names", "why_tests_cant": "all base names; all 12 combinations", "anchors": ["include/osmium/osmfile.hpp: filename_without_suffix, filename_with_default_suffix, set_type_and_encoding, FileType, FileEncoding"]}
{"id": "C51", "title": "File descriptors are owned by exactly one OSMFile", "statement": "Copying or assigning OSMFile objects never duplicates ownership of an open file descriptor or child process: every descriptor is closed at most once, and closing reports a failed decompression child.", "quantifier": "all sequences of open, copy, assign, close and destroy operations on any number of objects", "why_tests_cant": "ownership over all histories and all failures of child processes", "anchors": ["include/osmium/osmfile.hpp: OSMFile copy constructor, operator=, close, open_for_input, open_for_output, ~OSMFile"]}
{"id": "C52", "title": "Tag filters: the first matching rule decides", "statement": "A key (or key/value) filter accepts a tag iff the first rule that matches it says so, and otherwise gives the default; the filtered iteration yields exactly the accepted tags in order.", "quantifier": "all rule lists and all tags", "why_tests_cant": "all rule lists and orders", "anchors": ["include/osmium/tags/key_filter.hpp: KeyFilter", "include/osmium/tags/key_value_filter.hpp: KeyValueFilter", "include/osmium/utils/filter_and_accumulate.hpp: filter_and_accumulate"]}
{"id": "C53", "title": "hstore output can be parsed back", "statement": "The hstore text generated for a tag list is unambiguous: a reader of the hstore quoting rules gets back exactly the same list of keys and values, whatever characters they contain.", "quantifier": "all tag lists with arbitrary strings", "why_tests_cant": "escaping bugs hide in quote/backslash combinations; injectivity is over all strings", "anchors": ["include/osmium/tags/to_string.hpp: TagToStringOp, append_escaped_string, HStoreOp"]}
{"id": "C54", "title": "WKB and hex WKB describe exactly the geometry", "statement": "Decoding the WKB (or EWKB) of a point, line string or polygon according to the OGC layout yields exactly the coordinates in order (reversed if requested for line strings); the hex form is the upper-case hex dump of the binary form.", "quantifier": "all geometries with any number of points (below 2^32) and all coordinate bit patterns", "why_tests_cant": "byte layout for all lengths", "anchors": ["include/osmium/geometry.hpp: write_binary, write_hex, write_binary_wkb_header, write_hex_wkb_header", "include/osmium/geometry/point.hpp", "include/osmium/geometry/linestring.hpp", "include/osmium/geometry/polygon.hpp"]}
{"id": "C55", "title": "WKT describes exactly the geometry", "statement": "The WKT of a point, line string or polygon lists exactly the coordinates of the way in order, separated by commas, in the right brackets, with an optional SRID prefix.", "quantifier": "all geometries with any number of points", "why_tests_cant": "separator logic for all list lengths incl. empty", "anchors": ["include/osmium/geometry.hpp: LonLatListWriter, AsWKT", "include/osmium/geometry/point.hpp", "include/osmium/geometry/linestring.hpp", "include/osmium/geometry/polygon.hpp"]}
{"id": "C56", "title": "Polygons from ways", "statement": "A Polygon can be created from a way iff its first and last node are the same; a polygon requested in reverse direction is output in reverse direction in every output format.", "quantifier": "all ways and both directions", "why_tests_cant": "all ways; consistency across formats", "anchors": ["include/osmium/geometry/polygon.hpp: Polygon", "include/osmium/geometry/linestring.hpp: LineString", "include/osmium/geometry/geos.hpp", "include/osmium/geometry/ogr.hpp", "include/osmium/geometry/shplib.hpp"]}
{"id": "C57", "title": "Shapefile geometries have no repeated points", "statement": "The shapefile line or polygon built from a way contains the positions of the way in order (or reverse order) with consecutive duplicates removed, at least two of them; degenerate ways raise IllegalGeometry; ways without positions raise an error.", "quantifier": "all ways with positions", "why_tests_cant": "all lists of nodes", "anchors": ["include/osmium/geometry/shplib.hpp: create_line_or_polygon"]}
{"id": "C58", "title": "Clipped attribute strings stay valid UTF-8", "statement": "Clipping a UTF-8 attribute value to the field width yields a valid UTF-8 prefix of the value, at most three bytes shorter than the width if anything was clipped.", "quantifier": "all valid UTF-8 strings and all field widths", "why_tests_cant": "multi-byte sequences at every offset relative to the boundary; small widths are undefined behaviour", "anchors": ["include/osmium/export/shapefile.hpp: add_attribute_with_truncate"]}
{"id": "C59", "title": "Shapefiles never exceed the size limit", "statement": "Whatever shapes and attributes are added, the sizes accounted for .shp, .shx and .dbf of each file never exceed 2^31-1 bytes; when a file is full a new file with the same fields is started and no shape is lost.", "quantifier": "all sequences of fields and geometries (single shapes below the limit)", "why_tests_cant": "needs gigabytes of data to reach the limit in a test", "anchors": ["include/osmium/export/shapefile.hpp: add_geometry, add_field, open, close, length_on_disk"]}
{"id": "C60", "title": "Output format registry", "statement": "An output is created by the creator function registered first for the encoding and not yet unregistered; otherwise FileEncodingNotSupported is thrown; registering twice reports failure and keeps the first creator.", "quantifier": "all sequences of register/unregister/create operations", "why_tests_cant": "map semantics over all histories", "anchors": ["include/osmium/output.hpp: Factory::register_output_format, unregister_output_format, create_output"]}
{"id": "C61", "title": "A truncated PBF file yields a prefix of its objects", "statement": "If a PBF file written by the library from objects sorted by type is cut off at any byte, then reading it calls the handler with the first so many of the objects written, unchanged and in order, and with no other object; then the read returns or throws an exception.", "quantifier": "all sequences of objects, all truncation points, all patterns of short reads, compressed and uncompressed", "why_tests_cant": "every byte position is a possible crash point, for every file", "anchors": ["include/osmium/input/pbf.hpp: parse, read_blob_header, read_blob", "include/osmium/output/pbf.hpp: store_blob"]}
{"id": "C62", "title": "A damaged XML file yields a prefix of its callbacks and an exception", "statement": "If the text of an XML file is cut off or becomes malformed at some point, read() makes exactly the first of the callbacks it makes for the intact file, and then throws; no object is delivered that is not in the intact file, and none is delivered partially.", "quantifier": "all documents, all points of damage", "why_tests_cant": "every crash point of every history", "anchors": ["include/osmium/input/xml.hpp: parse, start_element, end_element"]}
{"id": "C63", "title": "The area of a multipolygon relation", "statement": "Building a multipolygon relation gives at most one area for the relation itself. Its id is twice the relation's id plus its sign, its timestamp is the latest of the relation and the member ways used, its other metadata are the relation's. The relation's tags come first, unchanged; a relation without meaningful tags takes over the tags of the first tagged outer way; a tagged relation takes over further tags only if its outline is a single way, and then only keys it does not have. The builder never crashes, whatever the members are.", "quantifier": "all relations, all lists of member ways (whose tags have non-empty values), all answers of the geometry library", "why_tests_cant": "ranges over all tag combinations, all ring arrangements and all geometric outcomes", "anchors": ["include/osmium/multipolygon/builder.hpp: build, build_multipolygon, merge_tags, untagged, same_tags", "include/osmium/osm/area.hpp: Area"]}
{"id": "C64", "title": "Tagged inner rings become areas of their own", "statement": "Besides the area of the relation the builder returns one area for each inner ring that consists of a single way with meaningful tags that differ from the tags of the relation and from those of the surrounding ring if that is a single way, and no other area. These areas are returned even if the multipolygon itself turns out to be invalid.", "quantifier": "all relations, all lists of members, all answers of the geometry library", "why_tests_cant": "ranges over all tag combinations, all ring arrangements and all geometric outcomes", "anchors": ["include/osmium/multipolygon/builder.hpp: handle_one_way_inner_ring, handle_one_way_inner_rings, build_multipolygon"]}
{"id":"C65","title":"Shapefile multipolygons consist of exactly the rings of the geometry","statement":"The shapefile geometry made from a multipolygon has one part for each ring, outer ring first and then its inner rings, polygon after polygon; part starts index into the vertex arrays so that each part is exactly the coordinates of its ring; it is made for every multipolygon with at least one polygon.","quantifier":"all multipolygons with any number of polygons, inner rings and vertices","why_tests_cant":"The part offsets depend on the sizes of all previous rings; tests cover only a few shapes.","anchors":["include/osmium/geometry/shplib.hpp: create_shp_object, dump_geometry"]}
{"id": "C66", "title": "Distances on the Earth", "statement": "The distance of two positions is the great-circle distance of the two points on a sphere with the Earth's radius: it is symmetric, zero for equal positions, positive for positions that are different points, at most half the circumference and satisfies the triangle inequality. The length of a way is the sum of the distances of consecutive nodes, so it does not depend on the direction, adds up when the way is cut at a node, and is at least the distance of its end nodes.", "quantifier": "all pairs and triples of valid positions, all way node lists of any length", "why_tests_cant": "Symmetry, triangle inequality and additivity range over all positions and all ways; floating point samples cannot establish them.", "anchors": ["include/osmium/geometry/haversine.hpp: Haversine::distance", "include/osmium/geometry/haversine.hpp: Haversine::distance(WayNodeList)"]}
{"id": "C67", "title": "What is in a PBF file if writing it is interrupted", "statement": "If a program that writes a PBF file is killed or a write fails at any point, reading the file yields the first so many of the objects, unchanged and in order, and then ends or throws. All objects but the last 8000 at most are in the file. If a write does not write all bytes, an exception is thrown.", "quantifier": "all sequences of objects, all points of interruption, all answers of the operating system to the write calls", "why_tests_cant": "Ranges over all crash points and all behaviours of the operating system.", "anchors": ["include/osmium/output/pbf.hpp: store_blob, store_primitive_block, check_block_contents_counter, final", "include/osmium/input/pbf.hpp: parse"]}
{"id": "C68", "title": "Converting files keeps the objects", "statement": "Reading a file with an output handler for another file of the same type as handler, in any direction between XML and PBF and any number of times in a row, yields a file that contains exactly the same objects in the same order, up to what the formats can store; objects that come from an XML file do not change at all. A file without objects is converted to a file without objects.", "quantifier": "all files with any number of objects, all sequences of conversions of any length", "why_tests_cant": "Composes reader, callback protocol and writer for all files and all chains of conversions; tests convert a few sample files once.", "anchors": ["examples/osmium_convert.cpp: main", "include/osmium.hpp: Input::read", "include/osmium/output.hpp: Output::Handler", "include/osmium/output/xml.hpp", "include/osmium/output/pbf.hpp", "include/osmium/input.hpp"]}
{"id": "C69", "title": "Every attribute goes to its shape", "statement": "A field is accepted exactly if its name has 1 to 11 bytes, its width is at most 255 and its type is known. If a program adds fields, geometries and attributes (each attribute after some geometry) and no exception is thrown, the files together contain exactly the geometries added, in order, each with exactly the values given between it and the next geometry, however often a new file had to be started; the files have different names. A value is refused exactly if there is no such field, the value does not fit, or an earlier shape of the same file has got no value at all.", "quantifier": "all sequences of operations of any length, all positions where a new file is started", "why_tests_cant": "Files are only switched after two gigabytes; the row bookkeeping must be right for every interleaving of operations.", "anchors": ["include/osmium/export/shapefile.hpp: Field, add_field, add_geometry, add_attribute, open"]}
{"id": "C70", "title": "A debug dump shows everything", "statement": "If two sequences of callbacks lead to the same text from the debug handler, they are the same callbacks with the same objects: all attributes, tags in order, positions of nodes, node references of ways, members of relations.", "quantifier": "all sequences of callbacks of any length with any objects whose texts have no newlines and whose keys have no bars", "why_tests_cant": "Ambiguity of a text format is a statement about pairs of inputs; tests compare one dump with one expected text.", "anchors": ["include/osmium/handler/debug.hpp: Debug"]}
{"id": "C71", "title": "The progress display shows the numbers of objects read", "statement": "If standard output is a terminal, every count shown is the number of objects of that kind read so far; counts are shown at the beginning, after each object that is the step-th, 2*step-th, ... of its kind, and at the end, where they are the totals; the cursor is hidden once at the beginning and shown again once at the end. If standard output is not a terminal nothing is printed.", "quantifier": "all positive steps, all sequences of objects of any length, all clock readings", "why_tests_cant": "Depends on the terminal and the clock; tests run without a terminal, where nothing is printed.", "anchors": ["include/osmium/handler/progress.hpp: Progress"]}
{"id": "C72", "title": "Any PBF file is read as the format says", "statement": "Reading a PBF file written by any program calls the handler with exactly the objects the file stands for according to the format description, in order: nodes dense or plain, with any granularities, offsets, string tables, with or without metadata and visible flags, in any number of blocks and groups, with blobs of unknown type in between.", "quantifier": "all files, by whatever program, whose numbers fit into the variables for them; all ways the operating system cuts the file into reads", "why_tests_cant": "Round-trip tests only see files the library itself has written: those always have offset 0, full metadata and one kind of string table.", "anchors": ["include/osmium/input/pbf.hpp: parse, parse_group, parse_node_group, parse_dense_node_group, parse_way_group, parse_relation_group"]}
{"id": "C73", "title": "PBF blocks are closed before they get too large", "statement": "A data block is written to the file as soon as its objects take more than 95 % of the 32 MB the format allows, so that no block gets larger than that by more than one object.", "quantifier": "all sequences of objects written, of any sizes up to 32 MB each", "why_tests_cant": "Needs blocks of 32 MB; depends on the accumulated size of everything written since the last block.", "anchors": ["include/osmium/output/pbf.hpp: check_block_contents_counter, write_way, write_relation"]}
{"id": "C74", "title": "Any OSM XML document is read as it says", "statement": "Reading an OSM XML document written by any program calls the handler with exactly the objects the document describes, in document order and with the metadata that precedes the first object: attributes in any order and mixed with unknown ones, missing attributes at their defaults, coordinates rounded to the nearest 100 nanodegrees, children in any order, unknown elements ignored, objects in delete sections not visible. A document of another version than 0.6 is refused before any callback.", "quantifier": "all documents with version 0.6 or no version, at least one object, any nesting of unknown elements around objects, numbers that fit into the variables for them, user names and roles up to 1021 bytes, coordinates not within 1e-13 degrees of the middle between two representable ones; all handlers that do not stop reading", "why_tests_cant": "Round-trip tests only see documents the library itself has written, always with the same order of attributes and children and no unknown elements.", "anchors": ["include/osmium/input/xml.hpp: start_element, end_element, init_object, check_tag", "include/osmium/osm/object.hpp: set_attribute"]}
{"id": "C75", "title": "The ring made from ways is the walk along them, or what is left after a repair", "statement": "The line of coordinates for the ways of a ring is the walk along the ways in their directions, with repeated consecutive nodes left out. If GEOS finds the ring valid it is taken as it is. Otherwise, if repair is asked for, one section between two visits is cut out (or kept, if it is the longer part), the longest simple beginning and end are kept, and the result is used only if GEOS finds it valid; in all other cases there is no ring.", "quantifier": "all lists of ways with locations up to 2^30 coordinates; all answers of GEOS", "why_tests_cant": "The repair is a bisection whose result depends on every prefix and suffix of the ring and on the answers of GEOS for each of them.", "anchors": ["include/osmium/multipolygon/builder.hpp: make_one_ring, create_non_intersecting_linear_ring"]}
{"id": "C76", "title": "The area has the polygons of its rings", "statement": "If building a multipolygon succeeds, its geometry has one polygon per outer ring, in order, whose outline is the outer ring (clockwise) and whose holes are its inner rings (counterclockwise), where inner rings that touch along a line are replaced by their union; each polygon and the whole is valid. If no inner rings of one outer ring touch along a line it succeeds exactly if there is an outer ring and all these geometries are valid. Inner rings that are features of their own become areas with exactly that ring. If it does not succeed the area has no geometry and the exception says why.", "quantifier": "all rings, all ways they can be arranged as outer and inner rings, all answers of GEOS", "why_tests_cant": "Merging is recursive over all pairs of inner rings and depends on the answers of GEOS for rings that are themselves unions.", "anchors": ["include/osmium/multipolygon/builder.hpp: build_multipolygon, check_touching_inner_rings, handle_one_way_inner_rings, add_area_for_inner, RingInfo::ring_in_direction"]}
{"id": "C77", "title": "Geometry objects are neither used after deletion nor deleted twice nor leaked", "statement": "Building a multipolygon never touches a geometry object after it was deleted or given to another object; when rings and areas are destroyed afterwards, nothing is deleted twice, and no geometry object is left over, whether building has succeeded or thrown an exception.", "quantifier": "all rings and arrangements of them, all answers of and exceptions from GEOS at any call", "why_tests_cant": "Depends on every path through the error handling; the answers of GEOS that lead there cannot be provoked systematically.", "anchors": ["include/osmium/multipolygon/builder.hpp: RingInfo, build_multipolygon, check_touching_inner_rings, add_area_for_inner", "include/osmium/osm/area.hpp: Area"]}
{"id": "C78", "title": "From the members of a relation to areas with geometry", "statement": "For a multipolygon relation and its member ways the builder returns: one area for each inner ring that is a single way with tags of its own, with the id, tags and nodes of that way and this ring as its geometry; and, if there is an outer ring and GEOS accepts all polygons, one area for the relation with its doubled id and merged tags, whose geometry has one polygon per outer ring. Nothing is returned if no rings can be formed. Each ring is a closed walk along ways that are used once; every area returned has a geometry, and all corners of it are nodes of member ways.", "quantifier": "all relations and lists of member ways with ids below 2^62 and tags with values, rings of up to 2^30 nodes; all answers of GEOS, all ways in which std::sort may order equal nodes, both modes of repair", "why_tests_cant": "The result depends on a backtracking search, on nesting, on merging and on the answers of GEOS together; tests cover a few relations.", "anchors": ["include/osmium/multipolygon/builder.hpp: Builder::build, assemble_ways, make_rings, determine_ring_containment, find_and_mark_inner_rings, build_multipolygon"]}
{"id": "C79", "title": "Texts reach scripts and come back unchanged", "statement": "Every text of up to 255 characters (keys, values, user names, roles) that OSM allows arrives in a script as its UTF-16 form and a text a script passes back arrives as its UTF-8 form; what is printed by a script is its UTF-8 form. Texts that cannot be converted raise an error; nothing is cut or changed silently.", "quantifier": "all byte strings, all sequences of 16-bit units including unpaired surrogates, all buffer sizes", "why_tests_cant": "There are unboundedly many texts; errors occur at buffer limits and with characters outside the basic plane.", "anchors": ["include/osmium/javascript/unicode.hpp: utf8_to_v8_String, v8_String_to_utf8, v8_String_to_ostream"]}
{"id": "C80", "title": "A script sees the object as it is", "statement": "The properties of nodes, ways, relations, members and areas that a script reads have the values of the object: numbers exactly, texts unchanged, tags[key] the value of the first tag with the key, all tags and list elements enumerated, geometries as arrays, WKT or hex WKB that describe the same coordinates in the direction wanted. What does not exist is undefined.", "quantifier": "all objects, keys, indexes and geometries", "why_tests_cant": "It must hold for all values of ids, texts and keys; limits are at 2^53, 2^31, array indexes and 1024 units.", "anchors": ["include/osmium/javascript/wrapper/osm.hpp", "include/osmium/javascript/wrapper/geometry.hpp", "include/osmium/javascript/wrapper/position.hpp", "include/osmium/javascript/template.hpp"]}
{"id": "C81", "title": "A script's callbacks are called for every event, in order", "statement": "For any event stream, a script's callback of a kind (init, before_nodes, node, after_nodes, ..., area, end) is called exactly once for each event of that kind, in order, with the object as receiver, if the script defined a function for it when it was loaded; no other call happens. With a location store the ways a script sees have the coordinates of their nodes.", "quantifier": "all scripts (as arbitrary state transformers), all assignments to the callbacks object, all event streams, all files with nodes before ways", "why_tests_cant": "The script, its state and the stream are unbounded; a test sees only particular callbacks and orders.", "anchors": ["include/osmium/javascript/handler.hpp", "osmjs/osmjs.cpp: main"]}
{"id": "C82", "title": "What osmjs does follows from its options", "statement": "osmjs runs the script given last with -j, all include files in order (each the first readable one on the search path), passing all arguments after the OSM file; the file is read twice and multipolygons are made iff -m is given; locations are kept in the store given last with -l. The combinations that make no sense (no script, no file, standard input twice, multipolygons without store, unknown options or stores, missing includes) end it with an error code before anything is read.", "quantifier": "all command lines and all environments", "why_tests_cant": "Options combine and repeat without bound.", "anchors": ["osmjs/osmjs.cpp: main, find_include_file"]}
{"id": "C83", "title": "Reading a file twice yields the located file and exactly its multipolygons", "statement": "For any file with nodes, ways and relations, read twice with a location store and the multipolygon assembler, the handler after them gets all calls for the file in order with every way's nodes at the positions their nodes have in the file; and in addition exactly one area for each closed way that is no member of a multipolygon relation, and the areas of each multipolygon relation that has all its ways, whose corners are positions of nodes of its member ways.", "quantifier": "all sorted files without repeated objects, all location stores, all scripts, whatever the geometry library answers", "why_tests_cant": "It composes the location store, the assembler, ring building and the callbacks over files of any size; a test fixes one file.", "anchors": ["osmjs/osmjs.cpp: main (two passes)", "include/osmium/multipolygon/assembler.hpp", "include/osmium/relations/assembler.hpp", "include/osmium/handler/coordinates_for_ways.hpp", "include/osmium/multipolygon/builder.hpp"]}
{"id": "C84", "title": "Scripts get what they write into their shapefiles and text files", "statement": "A script that opens a shapefile, adds fields and then objects with attributes gets exactly one row per accepted object, with the geometry of the object and in each field the attribute of the same name: the text (cut at a whole character to the width), the integer, the truth value, or nothing; and a script that prints lines to a text file gets these lines in UTF-8, so that texts without tabs and ends of line can be read back.", "quantifier": "all sequences of calls of a script, all texts and attribute values, all numbers of fields and rows", "why_tests_cant": "The rows depend on the whole history of calls, on where a text is cut in UTF-8 and UTF-16 and on exceptions in the middle of a line; tests only try a few histories and texts.", "anchors": ["include/osmium/javascript/wrapper/export_shapefile.hpp", "include/osmium/javascript/wrapper/export_csv.hpp", "include/osmium/export/csv.hpp", "include/osmium/export/shapefile.hpp", "include/osmium/javascript/unicode.hpp"]}
{"id": "C85", "title": "The density picture shows how many nodes are where", "statement": "nodedensity SIZE MIN MAX makes a picture of 2*SIZE columns and SIZE lines in which the grey of each pixel tells, black for at most MIN and white for at least MAX and linear in between, how many nodes of the file are at the places this pixel stands for, whatever the positions of the nodes.", "quantifier": "all files (any number and order of nodes, any position that can be stored), all sizes and limits", "why_tests_cant": "Positions, counts and sizes range over whole integer domains; overflow of a pixel's counter or of an index happens only for pictures and numbers of nodes no test tries.", "anchors": ["examples/nodedensity.cpp"]}
{"id": "C86", "title": "osmium_relation_members describes every relation once, with its members", "statement": "For a file with nodes, ways and relations, osmium_relation_members prints exactly one description of each relation that has members: id, tags, and the members in order with type, id and role, each with the tags of the object in the file or the note that it is not there; a description is marked INCOMPLETE exactly if some member is not in the file.", "quantifier": "all files (any number of objects, any relations, roles and tags, members missing or not, relations that are members of relations)", "why_tests_cant": "The order in which relations become complete depends on the whole history of objects read; index bookkeeping over all relations must hold for every file.", "anchors": ["examples/osmium_relation_members.cpp", "include/osmium/relations/assembler.hpp"]}
{"id": "C87", "title": "osmium_toshape writes exactly the post boxes and the roads of a file", "statement": "osmium_toshape makes two shapefiles: one with a point for each node with amenity=post_box, with its id and its operator (as much as fits into 30 bytes, no broken characters); one with a line for each way with a highway tag that has at least two different points, through the positions of its nodes in the file and without repeated points, with its id and the value of the tag. Order is as in the file, and every shape has its own record.", "quantifier": "all files in the usual order, all tags, texts and positions, any Shapelib that accepts the values", "why_tests_cant": "Pairing of shapes with records, the positions of all way nodes and truncated texts must hold for every file; files with missing nodes behave differently.", "anchors": ["examples/osmium_toshape.cpp", "include/osmium/export/shapefile.hpp", "include/osmium/handler/coordinates_for_ways.hpp", "include/osmium/geometry/shplib.hpp"]}
{"id": "C88", "title": "osmium_find_bbox prints the smallest box with all nodes of the file", "statement": "osmium_find_bbox prints one line with minlon, minlat, maxlon and maxlat of the smallest box that contains all nodes of the file.", "quantifier": "all files (any number of nodes at any places, any other objects)", "why_tests_cant": "Extremes, signs and the rounding of printed numbers must be right for every set of coordinates.", "anchors": ["examples/osmium_find_bbox.cpp", "include/osmium/handler/find_bbox.hpp", "include/osmium/osm/bounds.hpp"]}
{"id": "C89", "title": "osmium_time prints the numbers of objects in the file", "statement": "osmium_time prints how many nodes, ways and relations the file has, whatever order they are in.", "quantifier": "all files with less than 2^64 objects, in any order", "why_tests_cant": "Counting over all sequences of calls of the handler interface.", "anchors": ["examples/osmium_time.cpp", "include/osmium/handler.hpp", "include/osmium/input.hpp"]}
{"id": "C90", "title": "osmium_to_postgis makes a row for every node with tags", "statement": "osmium_to_postgis makes one row for each node of the file that has a tag other than created_by and odbl, in the order of the file: the position, the id, and a text that PostgreSQL reads as exactly the other tags of the node, with any characters in them. For a file in the usual order all rows are made in one transaction that is committed.", "quantifier": "all files, all tags, any database that accepts the rows", "why_tests_cant": "Quoting must be right for all texts, and rows must be right for all sequences of objects.", "anchors": ["examples/osmium_to_postgis.cpp", "include/osmium/tags/to_string.hpp", "include/osmium/tags/key_filter.hpp", "include/osmium/utils/filter_and_accumulate.hpp"]}
{"id": "C91", "title": "osmium_toogr makes features of exactly the post boxes and the roads", "statement": "osmium_toogr makes a point for each node with amenity=post_box, with its id and operator, and a line for each way with a highway tag, through the positions that its nodes have in the file, with its id and the value of the tag; in the order of the file.", "quantifier": "all files in the usual order, all tags, positions and location stores", "why_tests_cant": "It composes the location store with the features over files of any size; nodes can be missing.", "anchors": ["examples/osmium_toogr.cpp", "include/osmium/geometry/ogr.hpp", "include/osmium/handler/coordinates_for_ways.hpp"]}
{"id": "C92", "title": "osmium_mpdump describes every area of the file once, with its origin", "statement": "osmium_mpdump prints one description for each closed way that is not in a multipolygon relation, with one polygon through the positions of its nodes, and one for each area made of each multipolygon relation whose ways are all in the file. Each is marked with the way or relation it is from and has the attributes and tags of that object.", "quantifier": "all files in the usual order, all ways and relations, all results of GEOS", "why_tests_cant": "It composes the location store, the assembler over two passes, the building of areas and the ids of areas for files of any size.", "anchors": ["examples/osmium_mpdump.cpp", "include/osmium/geometry/multipolygon.hpp", "include/osmium/multipolygon/assembler.hpp", "include/osmium/osm/area.hpp"]}
{"id": "C93", "title": "osmium_toogr2 makes features of exactly the buildings", "statement": "osmium_toogr2 makes one feature for each area of the file with a building tag: closed ways that are not in a multipolygon relation, and areas made of multipolygon relations whose ways are all in the file. The feature has the outer ring and the holes of each polygon and an id that tells buildings apart.", "quantifier": "all files in the usual order, all tags, all results of GEOS", "why_tests_cant": "Ids of any size, and files of any size through two passes, cannot be enumerated.", "anchors": ["examples/osmium_toogr2.cpp", "include/osmium/geometry/ogr_multipolygon.hpp", "include/osmium/multipolygon/assembler.hpp"]}
{"id": "C94", "title": "osmium_range_from_history extracts the current data from a history file", "statement": "The file osmium_range_from_history writes has, for whoever reads it, exactly the current version of every object of the history file, in the same order and with everything the format keeps; objects deleted in the meantime are not in it.", "quantifier": "all history files with objects of any number of versions, both formats and all file types of the output, all times at which the program is started", "why_tests_cant": "End times depend on the next object in the stream, and the result is that of a reader applied to what a writer has made of any history.", "anchors": ["examples/osmium_range_from_history.cpp", "include/osmium/handler/endtime.hpp", "include/osmium/handler/range_from_history.hpp", "include/osmium/output/xml.hpp", "include/osmium/output/pbf.hpp"]}
{"id": "C95", "title": "osmium_store_and_debug dumps the OSM file with the changes applied", "statement": "osmium_store_and_debug dumps the OSM file with the changes of the change file applied: every object that is not changed, new objects and new versions instead of old ones, not those deleted, in the usual order.", "quantifier": "all change files and OSM files in the usual order with any objects", "why_tests_cant": "The merge of two files of any size, with types missing in one of them, cannot be enumerated.", "anchors": ["examples/osmium_store_and_debug.cpp", "include/osmium/storage/objectstore.hpp", "include/osmium/handler/debug.hpp"]}
{"id": "C96", "title": "Areas own their geometry", "statement": "An area with a geometry can be copied and assigned like a value: afterwards each area has the geometry a value would have, no two areas share one, nothing is used after it is deleted, and when all areas are gone no geometry is left.", "quantifier": "all histories of making, copying, assigning, destroying areas and setting their geometries, any number of areas", "why_tests_cant": "Ownership mistakes show only for particular orders of copies and destructions, often without visible effect; all histories must be considered.", "anchors": ["include/osmium/osm/area.hpp: Area::Area(const Area&), operator=, ~Area, geos_geometry"]}
{"id": "C97", "title": "What a script has exists as long as it may use it", "statement": "Whatever a script does with the objects, their parts and geometries that it gets in its callbacks, and whenever the garbage collector runs, nothing is used that does not exist any more, no geometry is deleted twice, and every geometry is deleted when its Javascript object is collected.", "quantifier": "all histories of callbacks, uses by the script, releases of objects by other handlers and garbage collections", "why_tests_cant": "When the garbage collector runs cannot be controlled, and using freed memory often has no visible effect.", "anchors": ["include/osmium/javascript/template.hpp: create_instance, create_persistent_instance, free_instance", "include/osmium/javascript/wrapper/osm.hpp", "include/osmium/geometry/linestring.hpp", "include/osmium/geometry/multipolygon.hpp"]}
{"id": "C98", "title": "osmium_convert converts the file it is told to and touches nothing else", "statement": "osmium_convert reads the input (a file, a URL or standard input) in the format given with -f or by its name and writes it to the output (a file or standard output) in the format given with -t or by its name; unknown formats and options are refused before anything is touched; it warns if the types differ; no other file is changed, and an existing output file is not destroyed if there is nothing to convert.", "quantifier": "all options in any order and number, all names, all files on the disk, all data", "why_tests_cant": "Options, names, suffixes and states of the file system combine without bound, and what must not change is everything else.", "anchors": ["examples/osmium_convert.cpp: main", "include/osmium/osmfile.hpp: set_type_and_encoding, open_for_input, open_for_output", "include/osmium/osmium.hpp: Input::read"]}
{"id": "C99", "title": "osmium_debug shows all that is in a file", "statement": "Two files for which osmium_debug prints the same text have the same generator and bounding box and the same objects with all attributes, tags, positions, references and members in the same order; the variant with end times also shows for every version when it was replaced.", "quantifier": "all pairs of files in any formats", "why_tests_cant": "That no two different files look the same is a statement about all pairs of files.", "anchors": ["examples/osmium_debug.cpp", "include/osmium/handler/debug.hpp", "include/osmium/handler/endtime.hpp"]}
{"id": "C100", "title": "No PBF file makes the reader write outside its buffers", "statement": "Whatever bytes a PBF file consists of, reading it never writes outside the reader's fixed buffers; blob headers above 64 KiB and blobs above 32 MiB are refused, and everything within the limits is accepted.", "quantifier": "all byte strings as files, all ways the system splits reads, all decompressors' results", "why_tests_cant": "Sizes come from the file and from the decompressed message; memory safety must hold for every combination, including hostile ones.", "anchors": ["include/osmium/input/pbf.hpp: read_blob_header, read_blob, unpack_zlib, parse", "include/osmium/input/pbf.hpp: max_blob_header_size"]}
{"id": "C101", "title": "A storage uses only its own memory, and gives it back once", "statement": "Storages that live in arrays or mapped memory never access or unmap memory that is not theirs, and when they are destroyed all of their memory has been given back, also if growing fails, if several storages are used at once or if the memory is used again by others.", "quantifier": "all sequences of set, get, clear, creation and destruction on any number of storages, all addresses the system chooses, all failures of the system calls", "why_tests_cant": "Depends on where the system maps memory and which calls fail; use after unmapping is often invisible in tests.", "anchors": ["include/osmium/storage/byid/mmap_anon.hpp", "include/osmium/storage/byid/mmap_file.hpp", "include/osmium/storage/byid/fixed_array.hpp"]}
{"id": "C102", "title": "Reading a file gives back what it opened, and fails if the data could not be fetched", "statement": "Input::read closes the file it opened and waits for the child process it started, whether parsing succeeds, a handler stops it or an error occurs; and it reports an error if the program that decompresses or fetches the data failed.", "quantifier": "all ways opening and parsing can end, all statuses of child processes, anything the handler does with other files meanwhile and afterwards", "why_tests_cant": "Leaked descriptors and unwaited children do no harm in a short test; failures of zcat or curl in the middle depend on the environment.", "anchors": ["include/osmium/osmium.hpp: Input::read", "include/osmium/input.hpp: Base", "include/osmium/osmfile.hpp: open_for_input, close, ~OSMFile", "include/osmium/input/pbf.hpp: parse"]}
{"id": "C103", "title": "Child processes have the right standard streams, and closing a file never hangs", "statement": "The program started to compress a file reads from the pipe and writes to the file; one started to decompress or fetch reads nothing and writes to the pipe; error messages are dropped. Compressed files and URLs can be opened and closed in any order, without having been read to their end, and closing never waits for ever.", "quantifier": "all tables of file descriptors of the program, all sequences of opening and closing any number of files with children, all moments at which children end", "why_tests_cant": "Depends on which descriptor numbers the program happens to have and on the order of opening and closing; hangs appear only for particular tables.", "anchors": ["include/osmium/osmfile.hpp: execute, close, open_for_input, open_for_output"]}
{"id": "C104", "title": "The assembler reports that all members are available exactly once", "statement": "In the second pass of a relation assembler all_members_available is called exactly once, after the last object of the last enabled member type and before the nested handler hears of the end of this type; nothing is looked at as a member after that.", "quantifier": "all configurations of enabled member types, all inputs of the second pass", "why_tests_cant": "Depends on which object types occur in the input; a file without ways or nodes behaves differently from the files used in tests.", "anchors": ["include/osmium/relations/assembler.hpp: HandlerPass2::after_nodes, after_ways, after_relations, all_members_available, m_want_types"]}
{"id": "C105", "title": "Coordinates given in degrees are stored as the nearest multiple of a ten millionth of a degree", "statement": "A position built from longitude and latitude in degrees stores for each the nearest multiple of 1e-7 degrees (up to the error of one multiplication of doubles); a value in the middle between two goes away from zero; larger degrees never give smaller stored values; negating the degrees negates the stored value.", "quantifier": "all doubles in the range of coordinates (order and sign: all doubles)", "why_tests_cant": "There are 2^64 doubles; errors appear at halfway values and at powers of two only.", "anchors": ["include/osmium/osm/position.hpp: double_to_fix, Position(double, double)"]}
{"id": "C106", "title": "Reading XML does not depend on the portions in which data arrives, and truncated files are reported", "statement": "The calls on the handler and the result of reading an XML file are the same whatever number of bytes each read of the file or pipe returns. If the file ends too early or reading fails, an exception is thrown after calls that are the first of those for the whole file. Parsing that was not stopped by the handler returns only if the whole file is a complete document.", "quantifier": "all XML files, all ways of cutting them into portions, all positions at which the data ends or reading fails, all handlers", "why_tests_cant": "Portions depend on timing of pipes and network; there are exponentially many ways to cut a file, and every byte can be the last one.", "anchors": ["include/osmium/input/xml.hpp: XML::parse, c_buffer_size"]}
{"id": "C107", "title": "What a handler has no callback for does not change what its other callbacks get", "statement": "Reading a PBF file with a handler that has no callback for nodes, ways or relations makes the same other calls, in the same order and with the same objects, and ends in the same way as reading it with a handler that has an empty callback there, although objects of this type are not decoded.", "quantifier": "all PBF files (also broken ones), all sets of types without callback, all handlers that may stop anywhere else", "why_tests_cant": "There are infinitely many files and ways in which groups of different types follow each other; the code that decodes is chosen per handler class at compile time.", "anchors": ["include/osmium/input/pbf.hpp: PBF::parse_group, parse_node_group, parse_dense_node_group, parse_way_group, parse_relation_group (overloads for members of Handler::Base)", "include/osmium/handler.hpp: Handler::Base"]}
{"id": "C108", "title": "The bytes of an XML file give back the texts that were written, and a cut file is noticed", "statement": "Whatever names, tags, roles and generator are written to an XML file, also with quotes, angle brackets, ampersands, newlines or characters of any language, reading the bytes of the file gives exactly the same texts and objects, whatever portions the bytes arrive in. If the end of the file is missing, reading reports an error (after calls for the first objects), unless only the newline at the end is missing.", "quantifier": "all files with objects in range, all texts, all portions of bytes, all places where a file can be cut", "why_tests_cant": "There are infinitely many texts and places to cut; tests use a few texts and whole files.", "anchors": ["include/osmium/output/xml.hpp: XML::init, node, way, relation, final, write_meta, write_tags", "include/osmium/input/xml.hpp: XML::parse"]}
{"id": "C109", "title": "What is in an XML file if writing fails or is interrupted", "statement": "Whatever the operating system answers to the writes, and whenever the program ends, an XML file contains the beginning of the document. If no exception was thrown by the end of writing, the file is complete; otherwise reading the file reports an error after calls for the first objects, and never takes it for a whole file.", "quantifier": "all files, all answers of the operating system (errors, short writes), all points at which the library writes its buffer or the program ends", "why_tests_cant": "Failing and short writes and crashes can happen at any byte; tests do not simulate a full disk.", "anchors": ["include/osmium/output/xml.hpp: check_for_error, XML::XML, XML::final", "include/osmium/input/xml.hpp: XML::parse"]}
{"id": "C110", "title": "Shapefiles made with osm2shape.js contain exactly what the configuration says", "statement": "With osm2shape.js and any configuration without mistakes, each shapefile of the configuration gets its columns in order and then, for every node, way and area and every rule for this file whose key and value it has, in order, one shape with the id and the values of the tags the rule names; nothing is left out and nothing else is written, and the program comes to its end. A configuration with an unknown type, shapefile or column is refused.", "quantifier": "all configurations (statements, chains of calls, values with alternatives), all sequences of objects with any tags", "why_tests_cant": "Configurations and input files are unlimited; the script has no tests at all.", "anchors": ["osmjs/js/osm2shape.js: shapefile, rule, build_func, tags2attributes, check, Osmium.Callbacks", "osmjs/js/config.js", "include/osmium/javascript/wrapper/export_shapefile.hpp: add, add_field"]}
{"id": "C111", "title": "The example scripts count and list objects correctly", "statement": "count.js writes for every key and every tag that occurs on nodes the number of nodes that have it, once each; osm2csv.js writes one line for each node with its id, name and note, from which these can be read; time.js reports the numbers of nodes, ways and relations of the file, and the lines 'first way' and 'first relation' in the right order.", "quantifier": "all sequences of objects with any tags", "why_tests_cant": "Input files are unlimited; which keys a file has decides which properties of a Javascript object are used as counters.", "anchors": ["osmjs/js/count.js", "osmjs/js/osm2csv.js", "osmjs/js/time.js"]}
{"id": "C112", "title": "shape_export.js exports exactly the points of interest, roads and areas it lists", "statement": "For every file, shape_export.js writes one point for each tag amenity=restaurant, amenity=pub or shop=supermarket of a node, one line for each way with the tag highway and one polygon for each area with the tag landuse, in order, with id, type and name, for roads with the direction (0, 1 or 2) and the speed in km/h (0 if the tag is not such a number); nothing else is written, the files are closed and the program comes to its end.", "quantifier": "all sequences of nodes, ways and areas with any tags and geometries", "why_tests_cant": "All tags and all values of `maxspeed` and `oneway` are possible; there are no tests for the scripts.", "anchors": ["osmjs/js/shape_export.js: Osmium.Callbacks.node, way, area, end", "include/osmium/javascript/wrapper/export_shapefile.hpp: add"]}
{"id": "C113", "title": "Geometries that scripts add become shapes with the points of the objects", "statement": "When a script adds `geom` of a node, `geom`, `reverse_geom` or `polygon_geom` of a way or `geom` of an area to a shapefile, exactly one shape is stored: the position of the node, the line through the positions of the way's nodes (in the order wanted, without repetitions), the closed way as ring, or all rings of the area; objects without position, with less than two different points or with a geometry of another type than the file leave the file as it is.  For a whole file read with a location store, shape_export.js stores the points of interest and the roads with the positions that the nodes have in the file.", "quantifier": "all objects, all sequences of calls of a script on a shapefile, all files with nodes, ways and relations, all faithful location stores", "why_tests_cant": "Geometries have any number of points, repeated nodes at any place, and missing nodes; scripts are unlimited.", "anchors": ["include/osmium/geometry/shplib.hpp: create_shp_object", "include/osmium/geometry/null.hpp: Null", "include/osmium/javascript/wrapper/export_shapefile.hpp: add", "include/osmium/javascript/wrapper/osm.hpp: OSMNode::geom, OSMWay::geom, reverse_geom, polygon_geom, OSMArea::geom", "osmjs/js/shape_export.js"]}
{"id": "C114", "title": "The example script exports all land use areas of a file, once", "statement": "shape_export.js used as documented (two passes, multipolygons, location store): for every file the three shapefiles hold exactly one point for each listed tag of a node, exactly one line for each way with `highway` that has a line, and exactly one polygon for each area with `landuse`: closed ways that are in no multipolygon relation as ring through their nodes, and every area made of a multipolygon relation that has its ways, with all its rings; all files are closed at the end.  Tags of areas come only from the relation or its ways and no key occurs twice.  An exception of GEOS while a relation is assembled is reported.", "quantifier": "all files with nodes, ways and relations in this order (no object twice), all faithful location stores, all behaviours of GEOS, all identities of shapes", "why_tests_cant": "Areas appear between the other objects in an order that depends on when relations become complete; the combinations of relations, ways and tags are unlimited.", "anchors": ["osmjs/js/shape_export.js", "osmjs/osmjs.cpp: main", "include/osmium/javascript/handler.hpp: area", "include/osmium/javascript/wrapper/osm.hpp: OSMArea::geom", "include/osmium/multipolygon/assembler.hpp", "include/osmium/multipolygon/builder.hpp"]}
{"id": "C115", "title": "The example scripts list all objects of a file completely", "statement": "objects.js and objects_2pass.js print, for every file and between `Start!` and `End!`, for each object in order a line with id, version, time, user id, user and changeset (and the position of a node as numbers, WKT and hex WKB, the line of a way that has its positions as WKT), then a line for each tag with its value, then a line for each node of a way and each member of a relation; with two passes also the areas made of closed ways and multipolygon relations.  What is printed determines the objects: the same listing is never printed for different attributes, tags, positions, nodes or members.", "quantifier": "all sequences of objects and areas, all files with nodes, ways and relations in this order, all faithful location stores, all behaviours of GEOS, all texts of keys, values, users and roles, however V8 writes numbers that are not integers", "why_tests_cant": "That two different files never have the same listing is a statement about all pairs of files; texts may contain spaces, equals signs, newlines and numbers.", "anchors": ["osmjs/js/objects.js", "osmjs/js/objects_2pass.js", "osmjs/osmjs.cpp: main", "include/osmium/javascript/handler.hpp: print", "include/osmium/javascript/wrapper/osm.hpp: OSMObject, OSMNode, OSMWay, OSMRelation, OSMArea", "include/osmium/javascript/wrapper/geometry.hpp"]}
{"id": "C116", "title": "The area script exports and lists exactly the areas of a file", "statement": "area.js (two passes, with multipolygon assembly) writes, for every file, a shapefile with exactly one polygon for each area: for each closed way that is not in a multipolygon relation the ring through its nodes, and for each area made of a multipolygon relation that has its ways all its rings; with the id of the area, its name, and its type (`boundary`, else `building`, else `unknown`).  It prints, between `Start!` and `End!`, one line for each area with its id and whether it was made from a way or a relation, in the order of the shapefile.", "quantifier": "all files with nodes, ways and relations in this order, all faithful location stores, all behaviours of GEOS and of the library for shapefiles, all texts of tags", "why_tests_cant": "The areas come out in an order that depends on where relations are completed; that the printed lines and the records stay in step and that no area is lost or doubled must hold for every file.", "anchors": ["osmjs/js/area.js", "osmjs/osmjs.cpp: main", "include/osmium/javascript/wrapper/osm.hpp: OSMArea", "include/osmium/javascript/wrapper/export_shapefile.hpp: ExportShapefile", "include/osmium/multipolygon/assembler.hpp"]}
{"id": "C117", "title": "The callback test script shows each callback exactly as documented", "statement": "callback_test.js prints a line for each call of init, before_nodes, after_nodes, before_ways, after_ways, before_relations, after_relations and end, in the order of the calls, and one line for the first node, way, relation and area only.  For a file with nodes, ways and relations in this order these are `init`, three lines for each kind of object that is in the file, and `end`, and among them `area` exactly once if the file has an area and otherwise not at all.", "quantifier": "all sequences of calls, all files with nodes, ways and relations in this order, all faithful location stores, all behaviours of GEOS", "why_tests_cant": "Which callbacks come, how often and in which order depends on which kinds of objects are in the file and on when relations are completed; this ranges over all files.", "anchors": ["osmjs/js/callback_test.js", "include/osmium/javascript/handler.hpp: Handler", "osmjs/osmjs.cpp: main", "include/osmium/input.hpp"]}
{"id": "C118", "title": "The geometry script shows the geometry of every object in all formats", "statement": "testgeom.js prints, for every node, way and area it is called with and in that order, a block of lines with the id and the geometry as JSON, WKT, EWKT, hex WKB and hex EWKB.  Reading the WKT texts of nodes and ways gives back the exact coordinates, and reading the WKB bytes gives back the coordinates as numbers, each with or without the SRID as asked for; the JSON array holds the longitudes and latitudes.  For ways the reversed line and, if the way is closed, the polygon follow.  A way whose last node has no position shows `undefined` everywhere, and a way that is not closed shows `undefined` for its polygon.  For whole files (two passes, with multipolygon assembly) all nodes, all ways with the positions of their nodes and all areas are shown.", "quantifier": "all sequences of calls with 32 bit coordinates and ways with up to a million nodes, all files with nodes, ways and relations in this order, all faithful location stores, all behaviours of GEOS", "why_tests_cant": "That no digit, sign, byte or node is lost in any of the formats must hold for all coordinates and all lengths of ways.", "anchors": ["osmjs/js/testgeom.js", "include/osmium/javascript/wrapper/geometry.hpp: Geometry", "include/osmium/geometry/point.hpp", "include/osmium/geometry/linestring.hpp", "include/osmium/geometry/polygon.hpp", "include/osmium/geometry/multipolygon.hpp", "include/osmium/javascript/wrapper/osm.hpp"]}
{"id": "C119", "title": "What the progress program leaves on the terminal", "statement": "While a file is read the terminal shows, in one line that is written again and again, exactly the latest counts and rate, with the cursor hidden.  When the file has been read there are two lines: the first shows exactly the numbers of nodes, ways and relations of the file (ways and relations only if there are some), with no remains of earlier displays, the second the averages; the cursor is visible again.  osmium_progress ends with status 0 then, and with status 1 if it is not given exactly one file; if standard output is not a terminal it prints nothing.", "quantifier": "all sequences of objects, all clocks, all steps, all widths of the numbers", "why_tests_cant": "What remains in a line that is written over depends on the widths of all displays before, hence on the whole history of counts and rates.", "anchors": ["include/osmium/handler/progress.hpp: Progress", "examples/osmium_progress.cpp: main"]}
{"id": "C120", "title": "Reported memory use", "statement": "used_memory() of a storage is what the storage occupies for the values set: all bytes of its block or mapping, one item per value in a vector, one bit per possible id and one value per id set in a sparse table; it is never less than the size of the values of the different ids set.  used_memory() of the relations assembler, after the first pass, returns and prints the memory for exactly the relations and members that were accepted.", "quantifier": "all histories of set calls, all sizes of values and increments, all inputs of the first pass, all choices of accepted relations and members, as long as the sums fit in 64 bits", "why_tests_cant": "The reported number depends on the whole history of calls: ids set again, growth of blocks and mappings, and what was accepted.", "anchors": ["include/osmium/storage/byid/stl_map.hpp: used_memory", "include/osmium/storage/byid/sparse_table.hpp: used_memory", "include/osmium/storage/byid/vector.hpp: used_memory", "include/osmium/storage/byid/fixed_array.hpp: used_memory", "include/osmium/storage/byid/mmap_anon.hpp: used_memory", "include/osmium/storage/byid/mmap_file.hpp: used_memory", "include/osmium/relations/assembler.hpp: used_memory"]}
{"id": "C121", "title": "Printed positions, bounding boxes and tags can be read back", "statement": "A position or bounding box written to a stream with << is a list of numbers in parentheses, longitude before latitude, bottom left before top right, from which the coordinates can be told if the stream prints ten digits or more; with fewer digits each number is off by at most half a unit of the last digit.  A tag written with << is key=value, from which key and value can be told.", "quantifier": "all positions, bounding boxes and tags, all precisions of the stream", "why_tests_cant": "There are 2^64 positions; which digits are lost depends on the size of the number and on the rounding of the double it is printed from.", "anchors": ["include/osmium/osm/position.hpp: operator<<", "include/osmium/osm/bounds.hpp: operator<<", "include/osmium/osm/tag_ostream.hpp: operator<<"]}
{"id": "C122", "title": "The OGR programs make the output they are asked for or report that they could not", "statement": "osmium_toogr, osmium_to_postgis and osmium_toogr2 read the file named on the command line and make the data source named there (or by default) with the documented layers and fields, with exactly the features of C90, C91 and C93 in them, close it and end with status 0.  If the OGR library refuses anything they ask for they end with status 1 and ask for nothing more.  With --help, bad options or a wrong number of names they ask nothing of the library.", "quantifier": "all command lines, all files of the usual order, all libraries (what is refused may depend on everything before)", "why_tests_cant": "The library can refuse any of the requests, at any point of a file of any size.", "anchors": ["examples/osmium_toogr.cpp: main, MyOGRHandler", "examples/osmium_to_postgis.cpp: main, MyOGRHandler", "examples/osmium_toogr2.cpp: main, OGROutHandler"]}
{"id": "C123", "title": "An exception of GEOS does not change what was delivered before it", "statement": "If GEOS throws an exception while the areas of a multipolygon relation are made in the second pass, the handler behind the assembler (and the text osmium_mpdump has handed to its output) has got, before that, everything it gets in a run without exception for the part of the file before the way that completes this relation: all nodes and ways up to there in order, exactly one area for each closed way that is not a member, and the areas of the relations completed before; of the relations completed by the same way, those treated before the failing one.  Nothing of this is doubled, shortened or in another shape.", "quantifier": "all files of the usual order, all behaviours of GEOS, all location stores, all points at which the exception can come", "why_tests_cant": "The exception can come at any relation of a file of any size, and the relations completed by one way are treated in an order that depends on an unstable sort.", "anchors": ["include/osmium/multipolygon/assembler.hpp: complete_relation, way_not_in_any_relation", "include/osmium/relations/assembler.hpp: HandlerPass2", "include/osmium/multipolygon/builder.hpp: build", "examples/osmium_mpdump.cpp: DumpHandler, main"]}
{"id": "C124", "title": "Messages of the multipolygon assembler change no area and name the relations that lack ways", "statement": "Setting a debug level on the multipolygon assembler changes nothing but the messages: the nested handler gets the same calls in the same order.  With level 0 nothing is printed.  With level 1, one line is printed in the first pass for each member of a multipolygon relation that is not a way, and at the end of the ways one line with the numbers of exactly those multipolygon relations for which a way is not in the file.  With level 2, right before a relation is assembled or an area made of a closed way a line with its number is printed: one for each closed way outside of multipolygon relations and one for each complete multipolygon relation.  Consequently the standard output of osmium_mpdump (which sets level 1) is these lines, the areas, and the warning, in this order; that of osmium_toogr2 is these lines, the numbers of relations and ways with the memory they take, and the warning.", "quantifier": "all sequences of calls in both passes and all debug levels for the first two claims; all files of the usual order, all location stores and all behaviours of GEOS for the others", "why_tests_cant": "With messages on, the assembler throws away finished relations in the middle of the second pass; that this can never change an area or meet a null pointer must hold for every sequence of calls, and the list of relations for every file.", "anchors": ["include/osmium/multipolygon/assembler.hpp: keep_member, way_not_in_any_relation, complete_relation, all_members_available", "include/osmium/relations/assembler.hpp: clean_assembled_relations, HandlerPass2", "include/osmium/debug.hpp: WithDebug", "examples/osmium_mpdump.cpp: main"]}
{"id": "C125", "title": "A multipolygon relation is built or it is reported why not", "statement": "No multipolygon relation that has all its ways is lost silently: if the geometry library throws no exception, either the relation's own area is given to the handler and nothing is reported about it, or no such area is given and exactly one line on the standard error names the relation and the reason.  The reason is true: the ways cannot be connected to rings, there are no (outer) rings, a polygon is not accepted, or the multipolygon is not accepted.  No other relation is reported.  If the geometry library throws an exception that ends the second pass, the same holds for the relations treated before it: exactly those of them are reported whose area the handler has not got, and nothing is reported about other relations.", "quantifier": "all relations, members and answers of the geometry library; for the second pass all files of the usual order and all location stores", "why_tests_cant": "Which relations fail, and why, depends on arbitrary geometry and on every answer of GEOS; that the union of areas and reports covers every relation exactly once must hold for every file.", "anchors": ["include/osmium/multipolygon/builder.hpp: Builder::build, make_rings, build_multipolygon", "include/osmium/multipolygon/assembler.hpp: complete_relation"]}
{"id": "C126", "title": "What the repair of multipolygons invents is announced", "statement": "Whenever rings are made for a multipolygon relation: the ways they consist of are those of the relation and, in repair mode only, one straight way for each line 'fill gap between nodes A and B' on the standard error, between these two nodes.  Each ring the geometry library accepts as it is has the corners one comes by on its ways, and for each one it does not accept there is a line 'Successfully repaired an invalid ring'.  So if no such line is printed the rings are those of the data.  (Claimed as well: there are no such lines but for rings that are made.  This is false when the library throws on being asked for the direction of the repaired ring.)", "quantifier": "all lists of ways with nodes, both modes, all answers (and exceptions) of the geometry library, all distances and orders of equal nodes", "why_tests_cant": "The messages are printed during a backtracking search over all chains of ways; that those in vain and those about rings in the result are told apart must hold for every set of ways and every answer of GEOS.", "anchors": ["include/osmium/multipolygon/builder.hpp: ring_is_complete, complete_ring, make_one_ring, find_and_repair_holes_in_rings, make_rings"]}
{"id": "C127", "title": "osmium_toshape reports what it leaves out", "statement": "Every road of the file is a shape in the file of roads or is named on the standard error with the reason why not, and never both.  Each node of a road that is not a point of its shape is reported in a warning, so the points and the warnings add up to the nodes of the way.  Nothing is printed about other objects.  (Claimed as well: this holds if nodes are missing.  It does not: a road whose last node is not in the file ends the program without being named.)", "quantifier": "all files with nodes, ways and relations in this order, all storages that work and all positions; roads end at nodes in the file", "why_tests_cant": "Which nodes are left out depends on the ids and positions of all neighbours in every way; the partition of the roads into shapes and reports must hold for every file.", "anchors": ["include/osmium/geometry/shplib.hpp: create_line_or_polygon", "examples/osmium_toshape.cpp: MyShapeHandler::way"]}
{"id": "C128", "title": "A PBF file means the same however the system hands out its bytes", "statement": "For every content of a file, good or bad, and every handler: the calls the PBF reader makes and the way it ends do not depend on how many bytes each read from the operating system returns.", "quantifier": "all byte sequences, all handlers (with any empty callbacks, stopping anywhere), all pairs of ways to split up the data", "why_tests_cant": "There are exponentially many ways in which a pipe or a file can return the data, and the claim is for damaged files as well.", "anchors": ["include/osmium/input/pbf.hpp: read_blob_header, read_blob, parse"]}
{"id": "C129", "title": "Programs that read their file twice see the same data twice, or fail", "statement": "osmium_mpdump, osmium_toogr2 and osmium_relation_members end well only if they are given exactly one name, all of the data it stands for can be read without error, and both passes have used all of it: the first pass, which leaves out nodes and ways and stops after the relations, finds what it would find in all the data, and the second one gets all calls.  For a readable file the programs print what the properties of their passes say.  With any other number of arguments they only print how they are used.  (Claimed as well: this works with standard input.  It does not: the first pass closes it, so the programs always fail.)", "quantifier": "all arguments, all files and other sources, both formats, all ways to split up the data, all orders of equal members", "why_tests_cant": "What the first pass leaves out depends on the order and types of all objects of a file and on the format; the programs cannot be run on every file.", "anchors": ["include/osmium.hpp: Osmium::Input::read", "include/osmium/osmfile.hpp: open_for_input, close", "include/osmium/relations/assembler.hpp: HandlerPass1", "examples/osmium_mpdump.cpp: main", "examples/osmium_toogr2.cpp: main", "examples/osmium_relation_members.cpp: main"]}
{"id": "C130", "title": "A read error is never taken for the end of a PBF file", "statement": "For every content of a PBF file, every handler and every sequence of results of the calls to read(2), failing calls among them: parsing does exactly what it does when no call fails, or it throws one of the three exceptions for failed reads after a beginning of the same calls. If it returns, the handler has seen what it sees when no call fails.", "quantifier": "all byte sequences, all handlers, all sequences of results of read (sizes and failures at any place)", "why_tests_cant": "Failures of the operating system can happen at every call and cannot be produced at will; the claim is for damaged files as well.", "anchors": ["include/osmium/input/pbf.hpp: read_blob_header, read_blob, parse"]}
{"id": "C131", "title": "Programs that read each file once report on all of the data they are given, or fail", "statement": "osmium_time, osmium_find_bbox, osmium_debug and osmium_store_and_debug, from their arguments to their end: with the wrong number of arguments they only say how they are used; if there is no data for a name they fail before they print anything; if data cannot be read to its end osmium_time, osmium_debug and osmium_store_and_debug fail; for readable data, from a file, an address or standard input, they print the counts, the box, the dump and the dump with changes of the properties C89, C88, C99 and C95. osmium_find_bbox needs only the data up to the end of the nodes. (Claimed as well: osmium_store_and_debug can read both files from standard input, one after the other. It cannot: it always fails.)", "quantifier": "all arguments, all files and other sources, both formats, all ways to split up the data", "why_tests_cant": "Which objects reach the handler depends on the format, the types without callbacks and the order of all objects; programs cannot be run on every file or with every failure.", "anchors": ["examples/osmium_time.cpp: main", "examples/osmium_find_bbox.cpp: main", "examples/osmium_debug.cpp: main", "examples/osmium_store_and_debug.cpp: main", "include/osmium.hpp: Osmium::Input::read", "include/osmium/handler/find_bbox.hpp: FindBbox"]}
{"id": "C132", "title": "osmium_range_from_history extracts from the file it is told to, and touches nothing else", "statement": "osmium_range_from_history, from its arguments to its end: with any other number of arguments than two it only says how it is used; it changes no file but the one named as output; it ends without error only if the output could be written, the history was read to its end and the extract was stored; if the output cannot be written nothing is changed; otherwise the output has exactly the last versions of all objects of the history (C94). (Claimed as well: if the history cannot be opened, or is the file named as output, no data is lost. It is lost: the output is emptied before the history is opened.)", "quantifier": "all arguments, all files and other sources, all contents, both formats, all file types, all times at which the program is started", "why_tests_cant": "What is left on disk depends on the names, the order in which files are opened and every way in which reading or writing can fail; the extract depends on the whole history.", "anchors": ["examples/osmium_range_from_history.cpp: main", "include/osmium/osmfile.hpp: OSMFile::open_for_input, OSMFile::open_for_output", "include/osmium.hpp: Osmium::Input::read", "include/osmium/output.hpp: Handler"]}
{"id": "C133", "title": "Exceptions of GEOS while polygons are made are reported and change nothing else", "statement": "While the polygons of a multipolygon relation are made, an exception of GEOS that is caught is reported on stderr. (1) What is said has no influence on the areas or on failures; two inner rings that GEOS cannot intersect are treated like rings that do not touch. (2) If the relation fails because of an invalid ring, the ring is the first outer ring whose polygon cannot be made or is not valid, and exactly if GEOS threw at this polygon the last line names the relation and the text of the exception; in all other cases there is no such line. (3) All other lines say that the intersection of two rings could not be checked; there are none if GEOS can intersect all rings, and if no inner rings of one outer ring touch along a line there is one for each pair of inner rings of the outer rings up to the failing one that GEOS cannot intersect, in the order of the outer rings.", "quantifier": "all sets of rings with any nesting, all ids of relations, all answers and exceptions of GEOS (with rings that cannot be intersected counted as not touching)", "why_tests_cant": "exceptions of GEOS depend on the coordinates and are hard to provoke; the program loops over any number of rings and starts again after each merge of inner rings", "anchors": ["include/osmium/multipolygon/builder.hpp: check_touching_inner_rings", "include/osmium/multipolygon/builder.hpp: build_multipolygon"]}
{"id": "C134", "title": "Strings in PBF files end at the first NUL character", "statement": "The strings in a PBF file have a length and may contain NUL characters; a handler gets C strings. (1) Whatever is in a file, no user name, key, value or role given to the handler contains a NUL. (2) A file that stands for some objects is read without an error as these objects with each string cut at its first NUL and everything else the same. (3) A file whose string tables contain no NUL is read exactly as if strings were not cut, whatever else is in it; objects without NULs survive being written and read. (4) It does not hold that text is kept or an error is reported: different keys can become the same key, and different files the same objects.", "quantifier": "all byte sequences as files, all handlers, all objects, all string tables, all chunkings of the input", "why_tests_cant": "every string of every file in every group format must be cut the same way; tests use files without NULs", "anchors": ["include/osmium/input/pbf.hpp: parse_node_group", "include/osmium/input/pbf.hpp: parse_way_group", "include/osmium/input/pbf.hpp: parse_relation_group", "include/osmium/input/pbf.hpp: parse_dense_node_group", "include/osmium/osm/object.hpp: user", "include/osmium/osm/tag.hpp: Tag", "include/osmium/osm/relation_member.hpp: role"]}
{"id": "C135", "title": "The PBF reader with skipped objects, failing reads and C strings at once", "statement": "For every content of a PBF file, every set of object types whose callbacks a handler leaves out, every point where the handler stops and every behaviour of the operating system: (1) what the reader does is what it does when no call of read fails, or it throws one of the exceptions for a failed read after the beginning of the same calls; if it returns, nothing is missing. (2) No object given to the handler contains a NUL in a string, and none is of a type that is left out. (3) If no read fails, leaving out types changes nothing but the calls for objects of these types, unless the reader throws an exception when nothing is left out; then it has made the first of the same calls. (4) Of a file written by the library with objects without NULs the handler gets all objects of the other types as they were written, or a beginning of these calls and an exception for a failed read; if no read fails, it gets all.", "quantifier": "all byte sequences as files, all sets of left out types, all handlers, all results of all calls of read, all written objects", "why_tests_cant": "each of these features is tested alone at best; their combinations with every file and every failing call cannot be enumerated", "anchors": ["include/osmium/input/pbf.hpp: parse", "include/osmium/input/pbf.hpp: parse_group", "include/osmium/input/pbf.hpp: read_blob_header", "include/osmium/input/pbf.hpp: read_blob", "include/osmium/handler.hpp: Base"]}
{"id": "C136", "title": "A file that cannot be read to its end is never half converted without an exception", "statement": "Converting a PBF or XML file to XML or PBF on a system where calls of read fail: (1) the conversion gives what it gives when no call fails, or it ends with the exception for a failed read. (2) If it ends without exception, the new file contains all objects of the old one in the same order, up to what the format keeps. (3) What is left in a PBF output, however the program ends, is the beginning of what it leaves when no call fails. (4) What is left after an exception can be recognised as incomplete.", "quantifier": "all PBF and XML files, both output formats, all settings of compression, all results of all calls of read", "why_tests_cant": "the failing call may be any of the calls for any file; tests run on systems where no call fails", "anchors": ["examples/osmium_convert.cpp: main", "include/osmium.hpp: Input::read", "include/osmium/input/pbf.hpp: parse", "include/osmium/output/pbf.hpp: store_blob", "include/osmium/output/xml.hpp"]}
