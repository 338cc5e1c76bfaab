{
 "claims": [
  {
   "property": "C01",
   "status": "proved",
   "theorems": [
    "Osmium.position_eq_iff",
    "Osmium.position_lt_strictTotalOrder",
    "Osmium.position_trichotomy",
    "Osmium.position_lt_iff"
   ],
   "note": ""
  },
  {
   "property": "C02",
   "status": "proved",
   "theorems": [
    "Osmium.bounds_extend_hull",
    "Osmium.bounds_order_independent",
    "Osmium.bounds_defined_iff",
    "Osmium.bounds_undefined_position_pollutes"
   ],
   "note": "Positions must be defined: an undefined position pollutes the bounds (bounds_undefined_position_pollutes)."
  },
  {
   "property": "C03",
   "status": "partial",
   "theorems": [
    "Osmium.objLt_eq",
    "Osmium.objLt_ub",
    "Osmium.objLt_strict_partial_order",
    "Osmium.objLt_strictWeakOrder_partial",
    "Osmium.objLt_not_strictWeakOrder"
   ],
   "note": "The full claim is false of the code: n and -n are equivalent but not ordered by version consistently (objLt_not_strictWeakOrder); proved on sets without such pairs. INT64_MIN is undefined behaviour (objLt_ub)."
  },
  {
   "property": "C04",
   "status": "partial",
   "theorems": [
    "Osmium.area_from_way_origin",
    "Osmium.area_from_relation_origin_partial",
    "Osmium.area_from_relation_zero",
    "Osmium.area_ids_unique",
    "Osmium.area_ids_no_overflow"
   ],
   "note": "orig_id/from_way is wrong for relation id 0 (area_from_relation_zero), all other ids proved."
  },
  {
   "property": "C05",
   "status": "proved",
   "theorems": [
    "Osmium.segment_eq_iff",
    "Osmium.undirected_symm",
    "Osmium.undirected_sorted",
    "Osmium.undirected_eq_iff",
    "Osmium.segment_lt_strictTotalOrder"
   ],
   "note": ""
  },
  {
   "property": "C06",
   "status": "proved",
   "theorems": [
    "Osmium.tag_history",
    "Osmium.tag_lookup_first",
    "Osmium.tag_lookup_none",
    "Osmium.tag_lookup_stable"
   ],
   "note": ""
  },
  {
   "property": "C07",
   "status": "proved",
   "theorems": [
    "Osmium.fix_double_fix"
   ],
   "note": "Doubles modelled as rationals rounded to 53 bits (round to nearest even), exponent range unbounded."
  },
  {
   "property": "C08",
   "status": "proved",
   "theorems": [
    "Osmium.set_attribute_frame",
    "Osmium.set_attribute_unknown",
    "Osmium.set_attribute_numbers",
    "Osmium.set_attribute_timestamp",
    "Osmium.set_attribute_text",
    "Osmium.set_attribute_throws_iff",
    "Osmium.set_attribute_throws_unchanged",
    "Osmium.set_user_not_cleared",
    "Osmium.set_attribute_wf",
    "Osmium.user_anonymous"
   ],
   "note": "User names: exception leaves the object unchanged; the documented 'set to \"\"' is false of the code (set_user_not_cleared). Text to number conversion modelled after glibc."
  },
  {
   "property": "C09",
   "status": "partial",
   "theorems": [
    "Osmium.addMember_appends",
    "Osmium.addMember_throws_partial",
    "Osmium.addMember_not_atomic",
    "Osmium.getMember_spec"
   ],
   "note": "Appending proved; the all-or-nothing part is false of the code: on a too long role a member with empty role stays in the list (addMember_not_atomic)."
  },
  {
   "property": "C10",
   "status": "proved",
   "theorems": [
    "Osmium.to_iso_form",
    "Osmium.parse_iso_form",
    "Osmium.parse_iso_iff",
    "Osmium.iso_roundtrip",
    "Osmium.iso_out_of_range",
    "Osmium.parse_iso_rejects",
    "Osmium.to_iso_defined"
   ],
   "note": "For the years 0 to 9999 (form: 1000 to 9999); outside this range and for 0 the text cannot be parsed (iso_out_of_range). parse_iso_iff says exactly which texts are accepted and as what. libc time functions modelled after POSIX/glibc."
  },
  {
   "property": "C100",
   "status": "partial",
   "theorems": [
    "Osmium.pbf_buffers_partial",
    "Osmium.pbf_large_header_refused",
    "Osmium.pbf_large_blob_refused",
    "Osmium.pbf_within_limits",
    "Osmium.pbf_buffers_need_assertions"
   ],
   "note": "With assertions compiled in no write leaves the buffers, for any file; limits are exactly those documented. Missing: without assertions it is false (witness)."
  },
  {
   "property": "C101",
   "status": "partial",
   "theorems": [
    "Osmium.storage_memory_partial",
    "Osmium.storage_cleared_twice",
    "Osmium.storage_cleared_other_used",
    "Osmium.storage_failed_growth",
    "Osmium.storage_failed_file",
    "Osmium.storage_file_stays_open"
   ],
   "note": "For any sequence of operations in which mapped storages are not cleared and growth does not fail; false without these conditions (witnesses)."
  },
  {
   "property": "C102",
   "status": "partial",
   "theorems": [
    "Osmium.read_releases_partial",
    "Osmium.read_result",
    "Osmium.read_throw_leaks",
    "Osmium.read_failed_download",
    "Osmium.xml_parser_freed_partial",
    "Osmium.xml_parser_leaks",
    "Osmium.xml_parser_leaks_stop"
   ],
   "note": "Everything is released if the file cannot be opened or parse returns; false if parse throws (for all continuations), and failures of the child are never reported (theorems). The memory of the XML parser is given back only if parsing succeeds without being stopped."
  },
  {
   "property": "C103",
   "status": "partial",
   "theorems": [
    "Osmium.child_reads_partial",
    "Osmium.child_writes_partial",
    "Osmium.close_never_hangs_partial",
    "Osmium.running_children",
    "Osmium.close_many_files",
    "Osmium.close_many_files_reading",
    "Osmium.child_closed_stdout",
    "Osmium.child_errors_in_data",
    "Osmium.child_missing_program"
   ],
   "note": "Streams are right if the program has standard input, output and error; closing never hangs with at most 30 descriptors, for all sequences of operations; every operation ends exactly the children it should. False otherwise (theorems for all larger tables)."
  },
  {
   "property": "C104",
   "status": "partial",
   "theorems": [
    "Osmium.available_once_partial",
    "Osmium.available_never"
   ],
   "note": "Proved when every enabled type occurs in exactly one block of the input (files in the usual order); without objects of an enabled type the call never comes (negation proved)."
  },
  {
   "property": "C105",
   "status": "proved",
   "theorems": [
    "Osmium.degrees_nearest",
    "Osmium.degrees_mono",
    "Osmium.degrees_neg",
    "Osmium.degrees_half"
   ],
   "note": "Doubles are rationals rounded to 53 bits (no overflow, no subnormals); the error bound of the multiplication is in the statement."
  },
  {
   "property": "C106",
   "status": "proved",
   "theorems": [
    "Osmium.xml_any_portions",
    "Osmium.xml_cut_file",
    "Osmium.xml_read_fails",
    "Osmium.xml_returned_complete"
   ],
   "note": "For every incremental parser with the law Streaming (expat's contract: portions can be joined, no events at the end of the data)."
  },
  {
   "property": "C107",
   "status": "partial",
   "theorems": [
    "Osmium.pbf_skip_partial",
    "Osmium.pbf_skip_written",
    "Osmium.pbf_skip_unnoticed"
   ],
   "note": "For every file and handler: same end and same other calls, or decoding an object fails in the reader that decodes all (missing there: equality, it is false, pbf_skip_unnoticed). For files written by the library equality is proved."
  },
  {
   "property": "C108",
   "status": "partial",
   "theorems": [
    "Osmium.xml_text_document",
    "Osmium.xml_bytes_roundtrip_partial",
    "Osmium.xml_bytes_control",
    "Osmium.xml_bytes_readable_iff",
    "Osmium.xml_bytes_roundtrip_fails",
    "Osmium.xml_cut_incomplete",
    "Osmium.xml_bytes_cut",
    "Osmium.xml_bytes_newline",
    "Osmium.xml_nested"
   ],
   "note": "For texts of characters that are allowed in XML. Texts with control characters are written but cannot be read: xml_bytes_control, xml_bytes_roundtrip_fails, xml_bytes_readable_iff. libxml2 and expat are stand-ins for ASCII output without document type declarations."
  },
  {
   "property": "C109",
   "status": "partial",
   "theorems": [
    "Osmium.xml_store_prefix",
    "Osmium.xml_store_until_prefix",
    "Osmium.xml_store_complete",
    "Osmium.xml_store_reported",
    "Osmium.xml_store_partial",
    "Osmium.xml_store_lost",
    "Osmium.xml_interrupted_noticed",
    "Osmium.xml_stored_read"
   ],
   "note": "The file is complete if no exception was thrown and the last call and xmlFreeTextWriter succeed; the latter is not checked by the code: xml_store_lost. Reading never takes an incomplete file for a whole one."
  },
  {
   "property": "C11",
   "status": "proved",
   "theorems": [
    "Osmium.delta_lossless",
    "Osmium.delta_no_overflow",
    "Osmium.delta_lossless_u32",
    "Osmium.delta_overflow"
   ],
   "note": "Signed (int64) and unsigned (uint32) delta chains; the 2^62 bound on signed values is needed, delta_overflow shows overflow (UB) without it."
  },
  {
   "property": "C110",
   "status": "partial",
   "theorems": [
    "Osmium.osm2shape_calls_partial",
    "Osmium.osm2shape_records_partial",
    "Osmium.osm2shape_succeeds",
    "Osmium.config_accepted_iff",
    "Osmium.osm2shape_number_value",
    "Osmium.osm2shape_inherited_name",
    "Osmium.osm2shape_index_key",
    "Osmium.osm2shape_id_wraps",
    "Osmium.osm2shape_file_names"
   ],
   "note": "For rules that write to a shapefile of the configuration, ask for texts and use keys that are not numbers; the other cases are disagreements. Values of ids up to 2^53."
  },
  {
   "property": "C111",
   "status": "partial",
   "theorems": [
    "Osmium.count_nodes_partial",
    "Osmium.count_inherited",
    "Osmium.count_proto",
    "Osmium.osm2csv_lines",
    "Osmium.osm2csv_undefined",
    "Osmium.time_script_counts"
   ],
   "note": "False of the code for keys that are names of functions of Object.prototype and for missing tags in osm2csv.js; proved otherwise."
  },
  {
   "property": "C112",
   "status": "partial",
   "theorems": [
    "Osmium.shape_export_records_partial",
    "Osmium.shape_export_succeeds_partial",
    "Osmium.shape_export_inherited",
    "Osmium.shape_export_fast_road"
   ],
   "note": "Proved for tags without repeated keys, keys that are numbers and names every object of a script has; false for amenity=constructor and for speeds of four digits."
  },
  {
   "property": "C113",
   "status": "partial",
   "theorems": [
    "Osmium.script_node_shape",
    "Osmium.script_way_shapes_partial",
    "Osmium.script_area_shape",
    "Osmium.script_shapes_stored_partial",
    "Osmium.shape_export_file_partial",
    "Osmium.script_node_without_position",
    "Osmium.script_way_without_position",
    "Osmium.script_area_without_rings"
   ],
   "note": "Full strength for nodes and areas (with at least one ring). Ways: nodes next to each other with the same id must be at the same place (holds for files read with a location store; see shp_same_ref_other_position of C57). The whole-file theorem has no multipolygons and the tags of shape_export_records_partial. Disagreements: script_node_without_position, script_way_without_position, script_area_without_rings."
  },
  {
   "property": "C114",
   "status": "partial",
   "theorems": [
    "Osmium.shape_export_areas_partial",
    "Osmium.relation_area_tags"
   ],
   "note": "Partial: files with nodes, ways and relations in this order, no object twice, ids below 2^62; tags as in C112 (no key twice, no numbers or names of inherited properties as keys or values)."
  },
  {
   "property": "C115",
   "status": "partial",
   "theorems": [
    "Osmium.listing_lines_partial",
    "Osmium.listing_complete_partial",
    "Osmium.listing_file_partial",
    "Osmium.listing_areas_partial",
    "Osmium.listing_repeated_key",
    "Osmium.listing_number_key",
    "Osmium.listing_ambiguous"
   ],
   "note": "no repeated keys or keys that are numbers, ids up to 2^53, texts that can be told apart; disagreements proved"
  },
  {
   "property": "C116",
   "status": "partial",
   "theorems": [
    "Osmium.area_script_partial",
    "Osmium.area_script_large_id"
   ],
   "note": "Proved for files with nodes, ways and relations in this order (as C83) and ids below 2^52; false for large ids: area_script_large_id."
  },
  {
   "property": "C117",
   "status": "partial",
   "theorems": [
    "Osmium.callback_test_lines",
    "Osmium.callback_test_file_partial"
   ],
   "note": "callback_test_lines is proved for all sequences of calls; the statement on whole files is partial as C83."
  },
  {
   "property": "C118",
   "status": "partial",
   "theorems": [
    "Osmium.testgeom_lines",
    "Osmium.testgeom_file_partial"
   ],
   "note": "testgeom_lines is for all calls; testgeom_file_partial is for whole files under the hypotheses of C83 (order of the file, faithful stores, ids). What GEOS writes for multipolygons is a parameter."
  },
  {
   "property": "C119",
   "status": "partial",
   "theorems": [
    "Osmium.progress_screen_end_partial",
    "Osmium.progress_screen_now_partial",
    "Osmium.progress_screen_remains",
    "Osmium.osmium_progress_file_partial",
    "Osmium.osmium_progress_abort"
   ],
   "note": "The end of a run and the program for every file, if no rate is undefined (C71); in between the line is exact if no display before was wider, and the counterexample shows that this is needed."
  },
  {
   "property": "C12",
   "status": "partial",
   "theorems": [
    "Osmium.string_table_lookup",
    "Osmium.string_table_interim_ids",
    "Osmium.string_table_collision",
    "Osmium.string_table_corruption"
   ],
   "note": "Proved for at most 65535 different strings in a block, for every sorting order among equal counts. Beyond that the property is false of the code: string_table_collision / string_table_corruption."
  },
  {
   "property": "C120",
   "status": "partial",
   "theorems": [
    "Osmium.fixedArray_used",
    "Osmium.mmapAnon_used",
    "Osmium.mmapFile_used_partial",
    "Osmium.mmapFile_used_less",
    "Osmium.vector_used",
    "Osmium.sparseTable_used",
    "Osmium.stlMap_used_wrong",
    "Osmium.assembler_used"
   ],
   "note": "Proved for fixed array, anonymous mapping, vector, sparse table and the assembler; a mapped file reports the mapped bytes (less than the file if that was larger before); StlMap reports 0, so the property is false for it (stlMap_used_wrong)."
  },
  {
   "property": "C121",
   "status": "partial",
   "theorems": [
    "Osmium.position_printed_partial",
    "Osmium.bounds_printed_partial",
    "Osmium.position_text_injective_partial",
    "Osmium.position_printed_near",
    "Osmium.bounds_printed_near",
    "Osmium.position_text_collision",
    "Osmium.position_text_collision_nine",
    "Osmium.tag_printed_partial",
    "Osmium.tag_text_collision"
   ],
   "note": "Proved for ten digits or more (told exactly) and, as an error bound, for any precision; false for the default six digits and for nine (position_text_collision, position_text_collision_nine).  Tags: proved for keys without '='; false otherwise (tag_text_collision)."
  },
  {
   "property": "C122",
   "status": "partial",
   "theorems": [
    "Osmium.toogr_heeds",
    "Osmium.to_postgis_heeds_partial",
    "Osmium.toogr2_heeds",
    "Osmium.toogr_program_partial",
    "Osmium.to_postgis_program",
    "Osmium.toogr2_program_partial",
    "Osmium.ogr_usage",
    "Osmium.to_postgis_commit_ignored",
    "Osmium.to_postgis_refusals_ignored",
    "Osmium.toogr_unreadable",
    "Osmium.ogr_read_errors"
   ],
   "note": "Programs heed the library for all command lines, files and libraries (to_postgis: except for SQL commands and the transaction, whose answers make no difference, to_postgis_refusals_ignored); the output for obliging libraries under the hypotheses of C91 and C93."
  },
  {
   "property": "C123",
   "status": "partial",
   "theorems": [
    "Osmium.areas_before_exception_partial",
    "Osmium.mpdump_before_exception_partial",
    "Osmium.mpdump_stops"
   ],
   "note": "For files with nodes, ways and relations in this order, no object twice, small ids, ways with nodes and tags with values. Exceptions come from the questions which ring contains which, from the merging of rings and from the check of the multipolygon."
  },
  {
   "property": "C124",
   "status": "partial",
   "theorems": [
    "Osmium.messages_change_nothing",
    "Osmium.no_messages",
    "Osmium.warning_partial",
    "Osmium.ignored_members",
    "Osmium.mpdump_stdout_partial",
    "Osmium.toogr2_stdout_partial",
    "Osmium.no_warning_without_ways",
    "Osmium.toogr2_stdout_order",
    "Osmium.announcements_partial",
    "Osmium.announced_first"
   ],
   "note": "Any debug level leaves the calls of the nested handler as they are, for all calls of both passes; for files in the usual order with at least one way the messages and the standard outputs of osmium_mpdump and osmium_toogr2 are as specified; a file without ways gets no warning, and the order of the output of osmium_toogr2 depends on the compiler (disagreements, proved). What is printed before an exception is left out."
  },
  {
   "property": "C125",
   "status": "partial",
   "theorems": [
    "Osmium.built_or_reported",
    "Osmium.reports_file_partial",
    "Osmium.reports_before_exception_partial",
    "Osmium.whole_report",
    "Osmium.reportTrace_ok"
   ],
   "note": "For a single relation proved for all members and all answers of GEOS (ids other than 0 and below 2^62, tags with values).  For a file as in C83 (usual order, no object twice), without and with an exception of GEOS that ends the second pass."
  },
  {
   "property": "C126",
   "status": "partial",
   "theorems": [
    "Osmium.repairs_announced_partial",
    "Osmium.unannounced_unchanged",
    "Osmium.repair_announced_in_vain"
   ],
   "note": "Gaps exactly, repaired rings each; that nothing else is announced is false of the code when GEOS throws in isCCW (repair_announced_in_vain), it is proved for a GEOS that does not."
  },
  {
   "property": "C127",
   "status": "partial",
   "theorems": [
    "Osmium.toshape_said_partial",
    "Osmium.toshape_said_stores_partial",
    "Osmium.road_said",
    "Osmium.other_said",
    "Osmium.warnings_count",
    "Osmium.toshape_unnamed"
   ],
   "note": "For files whose roads end at nodes in the file (also for the program's own storages); roads that do not are not reported (toshape_unnamed)."
  },
  {
   "property": "C128",
   "status": "proved",
   "theorems": [
    "Osmium.pbf_pieces"
   ],
   "note": "for every data, handler and splitting"
  },
  {
   "property": "C129",
   "status": "partial",
   "theorems": [
    "Osmium.twopass_file",
    "Osmium.twopass_done",
    "Osmium.twopass_usage",
    "Osmium.twopass_total",
    "Osmium.mpdump_program_partial",
    "Osmium.toogr2_twopass_partial",
    "Osmium.members_program_partial",
    "Osmium.twopass_stdin",
    "Osmium.programs_stdin"
   ],
   "note": "partial: standard input never works (twopass_stdin, programs_stdin); names with the documented meaning; what C86, C92 and C93 leave out"
  },
  {
   "property": "C13",
   "status": "partial",
   "theorems": [
    "Osmium.string_table_sorted",
    "Osmium.string_table_not_sorted"
   ],
   "note": "Proved when no string is recorded more than 65536 times; string_table_not_sorted proves the property false beyond that (uint16 counter)."
  },
  {
   "property": "C130",
   "status": "proved",
   "theorems": [
    "Osmium.pbf_read_errors",
    "Osmium.pbf_returned_whole",
    "Osmium.pbf_no_errors",
    "Osmium.pbf_first_read_fails"
   ],
   "note": "The calls of the operating system are arbitrary; EINTR counts as a failure, as in the code."
  },
  {
   "property": "C131",
   "status": "partial",
   "theorems": [
    "Osmium.onepass_usage",
    "Osmium.onepass_missing",
    "Osmium.onepass_done",
    "Osmium.time_program",
    "Osmium.debug_whole_program",
    "Osmium.find_bbox_whole",
    "Osmium.find_bbox_program_partial",
    "Osmium.store_debug_whole",
    "Osmium.store_debug_program_partial",
    "Osmium.store_debug_stdin",
    "Osmium.store_debug_usage"
   ],
   "note": "Names with the documented meaning (C49); the content of box and dump as far as C88 and C95 go; store_and_debug fails if both files are standard input (store_debug_stdin)."
  },
  {
   "property": "C132",
   "status": "partial",
   "theorems": [
    "Osmium.range_program_usage",
    "Osmium.range_program_others",
    "Osmium.range_program_reports_errors",
    "Osmium.range_program_partial",
    "Osmium.range_program_objects_partial",
    "Osmium.range_program_destroys_output",
    "Osmium.range_program_same_file"
   ],
   "note": "whole program on top of C98 and C94; the input must exist and be another file than the output: otherwise data is lost (proved)"
  },
  {
   "property": "C133",
   "status": "proved",
   "theorems": [
    "Osmium.noisy_same",
    "Osmium.polygon_messages",
    "Osmium.no_pair_messages",
    "Osmium.polygon_messages_exact"
   ],
   "note": "The exact number of lines about intersections is proved for relations whose inner rings do not touch along a line; after merges only their kind and position. The text of the exception is an answer of GEOS."
  },
  {
   "property": "C134",
   "status": "partial",
   "theorems": [
    "Osmium.pbf_strings_are_cstrings",
    "Osmium.pbf_reads_cut_partial",
    "Osmium.pbf_file_roundtrip_cstrings",
    "Osmium.pbf_without_nul",
    "Osmium.pbf_nul_text_lost"
   ],
   "note": "That text is kept or an error reported is false (pbf_nul_text_lost). pbf_reads_cut_partial has the limits of C72; the other theorems hold for every file."
  },
  {
   "property": "C135",
   "status": "proved",
   "theorems": [
    "Osmium.pbf_all_read_errors",
    "Osmium.pbf_all_returned_whole",
    "Osmium.pbf_all_objects",
    "Osmium.pbf_all_skip",
    "Osmium.pbf_all_none",
    "Osmium.pbf_all_written"
   ],
   "note": "One reader with all three features; the metadata of the file and the codecs are as in C07 and C58."
  },
  {
   "property": "C136",
   "status": "partial",
   "theorems": [
    "Osmium.convert_read_failure",
    "Osmium.convert_xml_failure",
    "Osmium.convert_done_whole",
    "Osmium.convert_leaves_prefix",
    "Osmium.convert_leaves_done",
    "Osmium.convert_xml_leaves_prefix",
    "Osmium.convert_xml_leaves_done",
    "Osmium.convert_failing_system_partial",
    "Osmium.convert_leaves_looks_whole"
   ],
   "note": "(1) and (3) for all files; (2) for PBF files with objects that both formats can store, without NULs. (4) is false: convert_leaves_looks_whole."
  },
  {
   "property": "C14",
   "status": "proved",
   "theorems": [
    "Osmium.dense_nodes_survive",
    "Osmium.nodes_survive"
   ],
   "note": "Dense nodes read back identically, for any number of nodes and blocks; ids below 2^62 in absolute value (beyond that the delta encoding overflows, see C11), timestamps below 2^53, granularity dividing 100 and date granularity 1000 (the defaults), user names within the length the reader accepts, at most 65535 strings per block."
  },
  {
   "property": "C15",
   "status": "proved",
   "theorems": [
    "Osmium.object_survives",
    "Osmium.relation_rejected_iff",
    "Osmium.node_way_accepted",
    "Osmium.pbf_rejected_relation_written",
    "Osmium.pbf_dense_switch_loses_node",
    "Osmium.pbf_granularity_switch_moves_node",
    "Osmium.pbf_fine_date_granularity_loses_timestamps",
    "Osmium.pbf_stored_time",
    "Osmium.pbf_no_date_granularity"
   ],
   "note": "Round trip for every kind of object, exact condition for the rejection of relations; a rejected relation nevertheless stays in the block (pbf_rejected_relation_written), and changing settings within a block corrupts objects (witnesses)."
  },
  {
   "property": "C16",
   "status": "proved",
   "theorems": [
    "Osmium.pbf_each_type_in_order",
    "Osmium.pbf_roundtrip_sorted",
    "Osmium.pbf_roundtrip_calls",
    "Osmium.pbf_mixed_types_reordered"
   ],
   "note": "For all object sequences, all flush points (sizes reported by protobuf are arbitrary) and any tie order of the string table. Mixed types within a block are regrouped by type (witness)."
  },
  {
   "property": "C17",
   "status": "proved",
   "theorems": [
    "Osmium.pbf_block_bounds",
    "Osmium.pbf_final_flushes",
    "Osmium.pbf_count",
    "Osmium.pbf_no_leak"
   ],
   "note": "For arbitrary operation sequences including exceptions and changed settings."
  },
  {
   "property": "C18",
   "status": "partial",
   "theorems": [
    "Osmium.blobs_roundtrip",
    "Osmium.blobs_truncated_partial",
    "Osmium.truncation_in_length_unnoticed"
   ],
   "note": "Blobs written are read back for every chunking; a cut anywhere gives exactly the complete blobs and is reported, except within the 4-byte length field: there it is silently accepted (proved as negation)."
  },
  {
   "property": "C19",
   "status": "proved",
   "theorems": [
    "Osmium.header_accepted_iff",
    "Osmium.header_rejected",
    "Osmium.written_header_accepted",
    "Osmium.written_header_rejected",
    "Osmium.pbf_file_wrong_type",
    "Osmium.pbf_features_declared"
   ],
   "note": "Acceptance iff; written headers accepted; wrong type rejected, also at byte level."
  },
  {
   "property": "C20",
   "status": "partial",
   "theorems": [
    "Osmium.header_bounds_partial",
    "Osmium.header_bounds_undefined",
    "Osmium.bbox_roundtrip_partial",
    "Osmium.bbox_roundtrip_fails"
   ],
   "note": "Bounds can shift by one unit (1e-7 degree): proved that the shift is at most one unit towards zero; exactness is false (bbox_roundtrip_fails)."
  },
  {
   "property": "C21",
   "status": "partial",
   "theorems": [
    "Osmium.allCalls_protocol",
    "Osmium.protocol_follows",
    "Osmium.runs_flatten",
    "Osmium.runs_type",
    "Osmium.runs_maximal",
    "Osmium.pbf_protocol",
    "Osmium.pbf_protocol_complete",
    "Osmium.pbf_file_roundtrip",
    "Osmium.xml_protocol",
    "Osmium.xml_protocol_complete",
    "Osmium.xml_roundtrip",
    "Osmium.allCalls_empty"
   ],
   "note": "Complete for non-empty files, for arbitrary PBF bytes and for arbitrary XML events; for a file without objects init is not called (allCalls_empty), so the claim is false there."
  },
  {
   "property": "C22",
   "status": "proved",
   "theorems": [
    "Osmium.stop_reading",
    "Osmium.no_stop",
    "Osmium.parse_returns_final",
    "Osmium.pbf_protocol",
    "Osmium.xml_protocol"
   ],
   "note": "For any events of the reader and any call at which the handler throws; pbf_protocol for arbitrary bytes, xml_protocol for arbitrary events."
  },
  {
   "property": "C23",
   "status": "partial",
   "theorems": [
    "Osmium.shared_calls",
    "Osmium.shared_unchanged",
    "Osmium.pbf_kept_unchanged",
    "Osmium.xml_kept_unchanged_partial",
    "Osmium.xml_kept_node_modified"
   ],
   "note": "Proved for the PBF reader for all bytes, and for the XML reader for all events without lon/lat on ways and relations; with such an attribute the claim is false (xml_kept_node_modified)."
  },
  {
   "property": "C24",
   "status": "proved",
   "theorems": [
    "Osmium.xml_well_nested"
   ],
   "note": "Every write ends in one well nested document with each object in its section."
  },
  {
   "property": "C25",
   "status": "proved",
   "theorems": [
    "Osmium.xml_roundtrip",
    "Osmium.xml_far_timestamp_unreadable",
    "Osmium.xml_other_member_type_lost",
    "Osmium.xml_user_without_uid_lost"
   ],
   "note": "Round trip for all three file types up to xmlKept, at the level of XML events (the text level is C108). Values outside XmlOk do not survive: counterexample theorems."
  },
  {
   "property": "C26",
   "status": "proved",
   "theorems": [
    "Osmium.xml_change_kind",
    "Osmium.xml_roundtrip"
   ],
   "note": "Change files: same objects with the same visibility; instance of xml_roundtrip."
  },
  {
   "property": "C27",
   "status": "partial",
   "theorems": [
    "Osmium.xml_no_abort_partial",
    "Osmium.xml_no_abort_numbers_partial",
    "Osmium.xml_unknown_ignored",
    "Osmium.xml_assertion_reachable",
    "Osmium.xml_coordinate_undefined",
    "Osmium.xml_coordinate_out_of_range",
    "Osmium.coordinate_in_range",
    "Osmium.coordinate_out_of_range",
    "Osmium.coordinate_not_finite",
    "Osmium.xml_coordinate_undefined_text"
   ],
   "note": "False for arbitrary well-formed documents (witness theorems: assertions reachable, undefined conversion of coordinates). Proved for documents in which object children have no children and the root element is not repeated, with coordinates in range; which coordinate texts are convertible is characterised; unknown elements are ignored in all of these."
  },
  {
   "property": "C28",
   "status": "proved",
   "theorems": [
    "Osmium.stlMap_faithful",
    "Osmium.stlMap_size"
   ],
   "note": "Map storage: last value set, or an exception; size is the number of distinct ids."
  },
  {
   "property": "C29",
   "status": "proved",
   "theorems": [
    "Osmium.sparseTable_faithful",
    "Osmium.sparseTable_overflow"
   ],
   "note": "For all ids and grow amounts whose sum stays below 2^64 and a grow amount above 0; sparseTable_overflow shows the result outside this range is undefined behaviour."
  },
  {
   "property": "C30",
   "status": "proved",
   "theorems": [
    "Osmium.vectorStore_faithful",
    "Osmium.vectorStore_out_of_order"
   ],
   "note": "For increasing ids; vectorStore_out_of_order shows what happens otherwise."
  },
  {
   "property": "C31",
   "status": "proved",
   "theorems": [
    "Osmium.fixedArray_faithful",
    "Osmium.fixedArray_bounds",
    "Osmium.mmapAnon_faithful",
    "Osmium.mmapAnon_refused",
    "Osmium.mmapFile_faithful",
    "Osmium.mmapFile_persistent",
    "Osmium.mmap_limits"
   ],
   "note": "Fixed array, anonymous and file mappings, with the mapped range given exactly; growth depends on an arbitrary oracle for the operating system."
  },
  {
   "property": "C32",
   "status": "proved",
   "theorems": [
    "Osmium.coordinates_for_ways",
    "Osmium.coordinates_missing_throws",
    "Osmium.coordinates_min_id",
    "Osmium.coordinates_file"
   ],
   "note": "For any two faithful storages; coordinates_min_id: the id -2^63 is undefined behaviour in the code."
  },
  {
   "property": "C33",
   "status": "proved",
   "theorems": [
    "Osmium.endTime_protocol",
    "Osmium.endTimes_getElem",
    "Osmium.endTimes_length"
   ],
   "note": ""
  },
  {
   "property": "C34",
   "status": "proved",
   "theorems": [
    "Osmium.range_overlap",
    "Osmium.range_run",
    "Osmium.range_end_included"
   ],
   "note": "Intervals are closed at both ends in the code: a version that ends exactly at the start of the range is included (range_end_included)."
  },
  {
   "property": "C35",
   "status": "partial",
   "theorems": [
    "Osmium.point_in_time_exact",
    "Osmium.point_in_time_partial",
    "Osmium.point_in_time_calls",
    "Osmium.point_in_time_objects",
    "Osmium.point_in_time_two_versions"
   ],
   "note": "Exactly the closed-interval versions are passed on (point_in_time_exact); at most one version per object unless a version starts exactly at t, where the code passes two (point_in_time_two_versions)."
  },
  {
   "property": "C36",
   "status": "partial",
   "theorems": [
    "Osmium.objectStore_feed_partial",
    "Osmium.Holds.once",
    "Osmium.objectStore_follows",
    "Osmium.objectStore_clear",
    "Osmium.objectStore_negative_id_dropped"
   ],
   "note": "Full claim except for stores holding both id n and -n of one type, where the second object is dropped (objectStore_negative_id_dropped)."
  },
  {
   "property": "C37",
   "status": "partial",
   "theorems": [
    "Osmium.apply_merges_partial",
    "Osmium.apply_merges_occurring",
    "Osmium.apply_loses_objects"
   ],
   "note": "Full claim if the stream has at least one object of each type in the store; the general result says stored objects of other types are not passed on (apply_merges_occurring, apply_loses_objects)."
  },
  {
   "property": "C38",
   "status": "proved",
   "theorems": [
    "Osmium.base_run",
    "Osmium.forward_run",
    "Osmium.sequence_run",
    "Osmium.sequence_first_throws",
    "Osmium.sequence_second_throws",
    "Osmium.sequence_assoc"
   ],
   "note": "Also says what happens when a handler throws."
  },
  {
   "property": "C39",
   "status": "proved",
   "theorems": [
    "Osmium.findBbox_hull",
    "Osmium.findBbox_no_nodes",
    "Osmium.findBbox_stops",
    "Osmium.nodesBeforeEnd_protocol",
    "Osmium.findBbox_file",
    "Osmium.findBbox_second_block"
   ],
   "note": ""
  },
  {
   "property": "C40",
   "status": "partial",
   "theorems": [
    "Osmium.assembler_trace_partial",
    "Osmium.assembler_completions_partial",
    "Osmium.assembler_file_partial",
    "Osmium.assembler_two_versions",
    "Osmium.assembler_version_after_completion",
    "Osmium.assembler_type_not_enabled"
   ],
   "note": "Proved for every set of relations and every second pass in which each object arrives once and each type in at most one block (assembler_completions_partial over callback traces, assembler_file_partial for whole sorted files). Full property false: two versions of one member can complete a relation with a missing member, another version after completion trips an assertion, a wanted member of a type that is not enabled never arrives (witnesses)."
  },
  {
   "property": "C41",
   "status": "partial",
   "theorems": [
    "Osmium.assembler_not_in_any_partial",
    "Osmium.assembler_file_partial",
    "Osmium.assembler_second_block"
   ],
   "note": "Proved for passes with one block of each enabled type; full property false when the objects of a type come in a second block (witness)."
  },
  {
   "property": "C42",
   "status": "partial",
   "theorems": [
    "Osmium.assembler_incomplete_partial",
    "Osmium.assembler_file_partial",
    "Osmium.assembler_two_versions"
   ],
   "note": "Same hypotheses as C40: what is left after clean_assembled_relations is exactly the relations with a missing wanted member, in order."
  },
  {
   "property": "C43",
   "status": "partial",
   "theorems": [
    "Osmium.mp_accept_iff",
    "Osmium.mp_referenced_iff",
    "Osmium.wayArea_spec",
    "Osmium.wayArea_empty",
    "Osmium.closed_ways_areas_partial",
    "Osmium.mp_assembler_total_partial"
   ],
   "note": "For whole files sorted by type with each object once. mp_accept_iff: which relations are considered; mp_referenced_iff: which ways are wanted; closed_ways_areas_partial: which ways become areas; mp_assembler_total_partial: nothing else goes wrong and the handler behind gets all calls. The claim fails for a way without nodes that is in no relation: undefined behaviour (wayArea_empty). Of several 'type' tags only the first counts (example). Missing: files not sorted or with several versions, for which C40/C41 fail."
  },
  {
   "property": "C44",
   "status": "proved",
   "theorems": [
    "Osmium.makeRings_spec",
    "Osmium.makeOneRing_spec",
    "Osmium.makeRings_stops_early"
   ],
   "note": "For every list of ways with nodes and all oracles for geometry, distances and sort order: the rings are cyclic chains of ways in the directions that are recorded for them, no way occurs twice in all rings together; in make_rings as a whole, including the repair, whose new ways join end nodes of the given ways."
  },
  {
   "property": "C45",
   "status": "proved",
   "theorems": [
    "Osmium.completeRing_spec",
    "Osmium.makeOneRing_spec",
    "Osmium.makeRings_spec",
    "Osmium.makeRings_stops_early"
   ],
   "note": "completeRing_spec: exhaustive backtracking search from any state of the marks; makeOneRing_spec: the ring search as called by the builder, success iff a closing chain exists, otherwise marks as before except for the start way (-2). makeRings_spec: termination. The search of all further ways stops at the first way that cannot be closed (witness makeRings_stops_early); this is not part of the claim."
  },
  {
   "property": "C46",
   "status": "proved",
   "theorems": [
    "Osmium.dangling_exact",
    "Osmium.dangling_closest"
   ],
   "note": "For any sorted permutation std::sort may produce and any distances. The nodes joined are ends of unused ways, with their positions."
  },
  {
   "property": "C47",
   "status": "partial",
   "theorems": [
    "Osmium.rings_inner_outer_partial",
    "Osmium.rings_exact_partial",
    "Osmium.rings_order_needed",
    "Osmium.goodOrder_outer_first",
    "Osmium.goodOrder_inner_first",
    "Osmium.goodOrder_shallow",
    "Osmium.rings_wrong_parent",
    "Osmium.tryRings_spec"
   ],
   "note": "Parity, and membership in the inner rings of the direct container, hold for all nestings and orders. That no other ring gets the inner ring is proved exactly for the ring orders characterised by GoodOrder (iff), which include outer-first, inner-first and all nestings of at most three levels; for other orders the property is false (witness rings_wrong_parent)."
  },
  {
   "property": "C48",
   "status": "partial",
   "theorems": [
    "Osmium.same_tags_iff_partial",
    "Osmium.same_tags_empty_value",
    "Osmium.same_tags_repeated_key",
    "Osmium.untagged_iff",
    "Osmium.merge_tags_exact",
    "Osmium.merge_tags_conflict_partial"
   ],
   "note": "untagged and the merged tags for all tag lists; comparison for lists without repeated keys and empty values; conflict report for lists without repeated keys. Witnesses show the property fails otherwise."
  },
  {
   "property": "C49",
   "status": "partial",
   "theorems": [
    "Osmium.file_settings_partial",
    "Osmium.file_settings_no_suffix",
    "Osmium.set_type_spec",
    "Osmium.set_encoding_spec",
    "Osmium.set_filename_spec"
   ],
   "note": "All names except http, https and those that consist of a suffix only (file_settings_no_suffix: such a file is detected as if the name were its suffix, or as a URL). Setting type and encoding by name: set_type_spec, set_encoding_spec."
  },
  {
   "property": "C50",
   "status": "partial",
   "theorems": [
    "Osmium.default_suffix_round_trip_partial",
    "Osmium.without_suffix_exact",
    "Osmium.default_suffix_change_pbf",
    "Osmium.without_suffix_dot_directory"
   ],
   "note": "All names that are not URLs and all combinations but change/PBF, for which the claim fails (default_suffix_change_pbf). The base name is cut at the first dot of the whole path, so directories with dots are lost (without_suffix_dot_directory)."
  },
  {
   "property": "C51",
   "status": "partial",
   "theorems": [
    "Osmium.fd_closed_once_partial",
    "Osmium.fd_no_leak_partial",
    "Osmium.close_reports_child_partial",
    "Osmium.fd_std_closes_other",
    "Osmium.fd_leaks",
    "Osmium.child_waited_twice"
   ],
   "note": "All histories in which no object uses standard input/output: every close closes the object's own open descriptor, once. With standard input the claim fails (fd_std_closes_other). No leaks if objects are not assigned to or reopened while open and fork does not fail (fd_leaks otherwise). Failed children are reported at every close, if process numbers are not reused (child_waited_twice otherwise)."
  },
  {
   "property": "C52",
   "status": "proved",
   "theorems": [
    "Osmium.key_filter_decides",
    "Osmium.key_value_filter_decides",
    "Osmium.regex_filter_decides",
    "Osmium.filter_iterate_exact",
    "Osmium.filter_and_accumulate_exact"
   ],
   "note": "First matching rule decides, otherwise the default; filtered iteration and filter_and_accumulate see exactly the accepted tags in order. A key/value rule given an empty value matches every value (that is how the rule is documented by its constructor); the regex filter is parametric in the regex matcher."
  },
  {
   "property": "C53",
   "status": "proved",
   "theorems": [
    "Osmium.hstore_round_trip",
    "Osmium.hstore_injective",
    "Osmium.key_equals_value_text"
   ],
   "note": "The hstore text is parsed back by an independent reader of the quoting rules; hence different tag lists give different texts."
  },
  {
   "property": "C54",
   "status": "proved",
   "theorems": [
    "Osmium.point_wkb_decodes",
    "Osmium.line_wkb_decodes",
    "Osmium.polygon_wkb_decodes",
    "Osmium.hex_wkb_is_dump",
    "Osmium.ieeeVal_fix"
   ],
   "note": "An independent reader of the (E)WKB layout with IEEE-754 doubles gets back the geometry; the hex form is the upper-case dump."
  },
  {
   "property": "C55",
   "status": "proved",
   "theorems": [
    "Osmium.wkt_text",
    "Osmium.point_wkt_decodes",
    "Osmium.line_wkt_decodes",
    "Osmium.polygon_wkt_decodes",
    "Osmium.strtodVal_fmtG10",
    "Osmium.line_wkt_empty"
   ],
   "note": "wkt_text gives the exact text for every geometry; an independent WKT reader gets back the exact coordinates (numbers read as decimal fractions). The empty line string gives LINESTRING(), which is no valid WKT (line_wkt_empty)."
  },
  {
   "property": "C56",
   "status": "partial",
   "theorems": [
    "Osmium.polygon_from_way",
    "Osmium.direction_respected_partial",
    "Osmium.polygon_wkt_ignores_reverse"
   ],
   "note": "Creation from a way is decided by the first and last node (empty node list: undefined behaviour, part of the statement). Direction is respected in GEOS, OGR and shapefile output and for line strings; WKT, WKB and hex WKB of polygons ignore it (polygon_wkt_ignores_reverse), so the property as stated is false of the code."
  },
  {
   "property": "C57",
   "status": "partial",
   "theorems": [
    "Osmium.shp_points_partial",
    "Osmium.squeeze_spec",
    "Osmium.shp_undefined_position",
    "Osmium.shp_same_ref_other_position"
   ],
   "note": "For ways in which equal references have equal positions and all positions are set. False in general: only the last node's position is checked (shp_undefined_position), and nodes with the same reference are treated as repetitions whatever their position (shp_same_ref_other_position)."
  },
  {
   "property": "C58",
   "status": "partial",
   "theorems": [
    "Osmium.truncate_utf8_partial",
    "Osmium.truncate_utf8_tight_partial",
    "Osmium.truncate_undefined_iff",
    "Osmium.truncate_narrow"
   ],
   "note": "For every width but 0 and, for texts starting with a character of two bytes, 2: the result is the longest prefix of characters that fits. In exactly the excluded cases the code reads outside the buffer (truncate_undefined_iff)."
  },
  {
   "property": "C59",
   "status": "partial",
   "theorems": [
    "Osmium.shapefile_sizes_partial",
    "Osmium.shapefile_stores_partial",
    "Osmium.shapefile_splits_late_partial",
    "Osmium.lengthOnDisk_eq",
    "Osmium.late_field_exceeds_limit"
   ],
   "note": "For shapefiles to which all fields are added before the first shape; late_field_exceeds_limit shows that the limit is exceeded if a field is added later. Record sizes according to the ESRI description."
  },
  {
   "property": "C60",
   "status": "proved",
   "theorems": [
    "Osmium.output_factory"
   ],
   "note": "For every sequence of calls; function pointers are values of an arbitrary type."
  },
  {
   "property": "C61",
   "status": "proved",
   "theorems": [
    "Osmium.pbf_truncated",
    "Osmium.blobs_truncated_prefix"
   ],
   "note": "Byte level."
  },
  {
   "property": "C62",
   "status": "proved",
   "theorems": [
    "Osmium.xml_truncated"
   ],
   "note": "Damage is modelled as a cut of the event sequence at any point followed by the error of the XML parser."
  },
  {
   "property": "C63",
   "status": "proved",
   "theorems": [
    "Osmium.build_total",
    "Osmium.build_areas_spec"
   ],
   "note": "Proved for tag values that are not empty and ids below 2^62 in size (the id of the area is otherwise not representable); for empty values see same_tags_empty_value in C48. GEOS is a parameter."
  },
  {
   "property": "C64",
   "status": "proved",
   "theorems": [
    "Osmium.innerAreas_spec",
    "Osmium.build_areas_spec"
   ],
   "note": "Same theorem as C63: the first part of the result; the condition for the second part shows that it does not depend on the validity of the multipolygon. 'Differ' is same_tags of C48."
  },
  {
   "property": "C65",
   "status": "proved",
   "theorems": [
    "Osmium.shp_multipolygon",
    "Osmium.shp_multipolygon_total"
   ],
   "note": "Parts of the shapefile geometry are exactly the rings, in order, outer rings before their inner rings; no polygons: undefined behaviour (shp_multipolygon_total)."
  },
  {
   "property": "C66",
   "status": "proved",
   "theorems": [
    "Osmium.haversine_is_arc",
    "Osmium.haversine_symm",
    "Osmium.haversine_range",
    "Osmium.haversine_triangle",
    "Osmium.haversine_self",
    "Osmium.haversine_pos",
    "Osmium.haversine_length",
    "Osmium.haversine_length_append",
    "Osmium.haversine_length_reverse",
    "Osmium.haversine_length_ge",
    "Osmium.haversine_accuracy"
   ],
   "note": "Exact real arithmetic: the rounding of doubles in sin, cos, asin and sqrt is not modelled (for antipodes the rounded argument of asin could exceed 1)."
  },
  {
   "property": "C67",
   "status": "partial",
   "theorems": [
    "Osmium.pbf_crash_partial",
    "Osmium.pbf_crash_durable",
    "Osmium.pbf_write_complete_partial",
    "Osmium.pbf_short_write_unnoticed",
    "Osmium.calls_prefix"
   ],
   "note": "Prefix property needs: after a short write all later writes fail. The result of write is only compared with 0, so a short last write goes unnoticed (pbf_short_write_unnoticed). Durability (all but the last 8000 objects at most) for complete writes."
  },
  {
   "property": "C68",
   "status": "partial",
   "theorems": [
    "Osmium.convert_step",
    "Osmium.convert_chain_partial",
    "Osmium.convert_lossless_partial",
    "Osmium.convert_ok_iff",
    "Osmium.convert_empty_xml",
    "Osmium.convert_empty_pbf"
   ],
   "note": "Proved for all files with at least one object and chains of any length; a conversion succeeds exactly if reading succeeds and the output takes all callbacks (convert_ok_iff). The part about files without objects is false: the XML output throws (convert_empty_xml), the PBF output writes a file without header (convert_empty_pbf). XML text and protobuf encoding as in C25 and C16."
  },
  {
   "property": "C69",
   "status": "proved",
   "theorems": [
    "Osmium.field_accepted_iff",
    "Osmium.shapefile_attributes",
    "Osmium.attribute_accepted_iff",
    "Osmium.attribute_after_bare_shape",
    "Osmium.attribute_before_geometry",
    "Osmium.shpFileName_injective"
   ],
   "note": "Shapelib's record bookkeeping (DBFWriteAttribute refuses records beyond the next one) is modelled from its documentation; which values fit is an arbitrary function. attribute_after_bare_shape and attribute_before_geometry show two surprises."
  },
  {
   "property": "C70",
   "status": "partial",
   "theorems": [
    "Osmium.debug_dump_complete_partial",
    "Osmium.debug_dump_ambiguous_bar",
    "Osmium.debug_dump_ambiguous_newline"
   ],
   "note": "For texts without newlines, keys without bars and times in the years 0 to 9999 (or unset). The full claim is false since nothing is escaped: debug_dump_ambiguous_bar, debug_dump_ambiguous_newline."
  },
  {
   "property": "C71",
   "status": "partial",
   "theorems": [
    "Osmium.progress_counts_partial",
    "Osmium.progress_quiet",
    "Osmium.progress_step_zero",
    "Osmium.progress_step_negative",
    "Osmium.progress_same_microsecond",
    "Osmium.progress_average_without_ways",
    "Osmium.progress_rates_partial"
   ],
   "note": "For positive steps, if no rate computed is undefined. The full claim is false: step 0 and objects in the same microsecond are undefined behaviour."
  },
  {
   "property": "C72",
   "status": "partial",
   "theorems": [
    "Osmium.pbf_reads_meaning_partial",
    "Osmium.pbf_milliseconds_lost",
    "Osmium.pbf_empty_group"
   ],
   "note": "For blocks whose times are in whole seconds and whose groups have at least one object; otherwise false (pbf_milliseconds_lost, pbf_empty_group). The parsing of protobuf messages is library code."
  },
  {
   "property": "C73",
   "status": "partial",
   "theorems": [
    "Osmium.pbf_block_size_partial",
    "Osmium.pbf_full_block_written",
    "Osmium.pbf_nodes_not_counted"
   ],
   "note": "Ways and relations; nodes and strings are not counted by the code (pbf_nodes_not_counted)."
  },
  {
   "property": "C74",
   "status": "proved",
   "theorems": [
    "Osmium.xml_reads_meaning",
    "Osmium.xml_other_version_refused"
   ],
   "note": "Coordinates within 1e-13 degrees of the middle between two multiples of 100 nanodegrees are left out."
  },
  {
   "property": "C75",
   "status": "partial",
   "theorems": [
    "Osmium.ring_coords",
    "Osmium.repair_cuts",
    "Osmium.repair_longest",
    "Osmium.ring_geometry",
    "Osmium.ring_geometry_valid",
    "Osmium.rings_have_geometry",
    "Osmium.repair_gives_up"
   ],
   "note": "All rings up to 2^30 coordinates and all answers of GEOS. Disagreement: rings of 6 or 7 coordinates that begin there and back are not repaired because GEOS throws (repair_gives_up)."
  },
  {
   "property": "C76",
   "status": "partial",
   "theorems": [
    "Osmium.multipolygon_geometry",
    "Osmium.multipolygon_failure",
    "Osmium.multipolygon_of_rings",
    "Osmium.multipolygon_succeeds_iff",
    "Osmium.polygons_directed",
    "Osmium.merging_stops"
   ],
   "note": "All rings, arrangements and answers of GEOS. The union of touching inner rings is complete (AllMerged) unless a pair has no union with one outline, which stops the merging (merging_stops)."
  },
  {
   "property": "C77",
   "status": "partial",
   "theorems": [
    "Osmium.builder_defined",
    "Osmium.objects_deleted_once",
    "Osmium.leak_iff_touching",
    "Osmium.exception_leaks"
   ],
   "note": "No use after deletion and no double deletion: proved for all inputs and answers of GEOS. No leak: proved if no exception comes from GEOS outside the guarded calls and no inner rings touch along a line; otherwise false (leak_iff_touching, exception_leaks)."
  },
  {
   "property": "C78",
   "status": "proved",
   "theorems": [
    "Osmium.rings_arranged",
    "Osmium.whole_areas",
    "Osmium.whole_rings",
    "Osmium.whole_corners",
    "Osmium.whole_nesting",
    "Osmium.tryRings_spec"
   ],
   "note": "All relations and members with ids below 2^62 and tags with values, all answers of GEOS and orders of std::sort. whole_corners assumes that GEOS makes no new corners when it merges rings (its own hypothesis, met by the example)."
  },
  {
   "property": "C79",
   "status": "partial",
   "theorems": [
    "Osmium.text_to_script_iff",
    "Osmium.text_to_script_total",
    "Osmium.text_from_script_partial",
    "Osmium.text_there_and_back",
    "Osmium.osm_texts_pass",
    "Osmium.text_from_script_cut",
    "Osmium.text_of_maximal_size_refused",
    "Osmium.text_printed_partial",
    "Osmium.text_printed_overflow",
    "Osmium.decodeUtf16_iff",
    "Osmium.utf16_injective"
   ],
   "note": "long texts from scripts are cut, astral texts of the documented maximum refused, huge prints overflow"
  },
  {
   "property": "C80",
   "status": "partial",
   "theorems": [
    "Osmium.script_object_partial",
    "Osmium.script_ids_collide",
    "Osmium.script_version_wraps",
    "Osmium.script_user",
    "Osmium.script_tag_partial",
    "Osmium.script_tag_keys",
    "Osmium.script_sees_all_tags_partial",
    "Osmium.script_index_keys",
    "Osmium.script_long_key",
    "Osmium.script_lists_partial",
    "Osmium.script_list_indexes",
    "Osmium.script_list_out_of_range",
    "Osmium.script_member",
    "Osmium.script_kinds",
    "Osmium.script_area_from",
    "Osmium.nodes_to_array",
    "Osmium.script_way_arrays",
    "Osmium.script_wkt",
    "Osmium.script_hexwkb",
    "Osmium.script_wkb_useless"
   ],
   "note": "ids >= 2^53, versions >= 2^31, keys that are array indexes, overlong keys, indexes out of range and toWKB differ"
  },
  {
   "property": "C81",
   "status": "partial",
   "theorems": [
    "Osmium.script_called_partial",
    "Osmium.script_replaced_callbacks",
    "Osmium.script_captured_once",
    "Osmium.script_located_partial"
   ],
   "note": "a script that replaces the callbacks object gets no calls; the script engine is abstract"
  },
  {
   "property": "C82",
   "status": "partial",
   "theorems": [
    "Osmium.osmjs_plan_partial",
    "Osmium.osmjs_not_acceptable",
    "Osmium.osmjs_two_pass_assembles",
    "Osmium.osmjs_two_pass_without_store",
    "Osmium.osmjs_include_without_home"
   ],
   "note": "-2 without -m makes multipolygons although the program says otherwise, and is undefined without a store; -i is undefined without HOME"
  },
  {
   "property": "C83",
   "status": "partial",
   "theorems": [
    "Osmium.multipolygons_file_partial",
    "Osmium.file_corners",
    "Osmium.script_multipolygons_partial",
    "Osmium.coordinates_file"
   ],
   "note": "Sorted files without repeated objects; ids below 2^62; ways have nodes, their tags have values; an exception of GEOS ends the run."
  },
  {
   "property": "C84",
   "status": "partial",
   "theorems": [
    "Osmium.shapefile_of_script_partial",
    "Osmium.shapefile_of_script_type",
    "Osmium.shapefile_of_script_succeeds",
    "Osmium.script_add_succeeds",
    "Osmium.script_text_stored",
    "Osmium.script_text_accepted_iff",
    "Osmium.script_text_refused",
    "Osmium.script_truth",
    "Osmium.script_add_illegal",
    "Osmium.script_double_refused",
    "Osmium.script_add_closed",
    "Osmium.csv_of_script_partial",
    "Osmium.csv_readable",
    "Osmium.csv_not_quoted",
    "Osmium.csv_bad_text",
    "Osmium.script_truth_number"
   ],
   "note": "Rows of shapefiles and lines of text files after any history of calls. Full property fails at the listed disagreements; values for fields of type double are refused by the code."
  },
  {
   "property": "C85",
   "status": "partial",
   "theorems": [
    "Osmium.density_picture_partial",
    "Osmium.density_one_pixel",
    "Osmium.density_unused",
    "Osmium.density_equal_limits",
    "Osmium.density_too_large",
    "Osmium.density_no_lines"
   ],
   "note": "sizes 1..32767 and 0 <= MIN < MAX, SIZE/180 pixels for a degree; counts stop at 65534; disagreements proved"
  },
  {
   "property": "C86",
   "status": "partial",
   "theorems": [
    "Osmium.relation_members_partial",
    "Osmium.members_outcome",
    "Osmium.members_empty_relation",
    "Osmium.members_incomplete_lost",
    "Osmium.members_unsorted"
   ],
   "note": "Files in the usual order with nodes, ways and relations, different ids; relations without members are never described, see the disagreements."
  },
  {
   "property": "C87",
   "status": "partial",
   "theorems": [
    "Osmium.toshape_partial",
    "Osmium.toshape_stores_partial",
    "Osmium.toshape_missing_node",
    "Osmium.toshape_hole",
    "Osmium.toshape_negative"
   ],
   "note": "If all roads end at nodes of the file; for others the program ends with an exception (toshape_missing_node)."
  },
  {
   "property": "C88",
   "status": "partial",
   "theorems": [
    "Osmium.find_bbox_partial",
    "Osmium.find_bbox_rounded",
    "Osmium.find_bbox_no_nodes",
    "Osmium.Text.strtodVal_fmtG"
   ],
   "note": "The sides up to 0.000501 degrees (six digits are printed), for files that begin with their nodes; the disagreements are find_bbox_rounded and find_bbox_no_nodes."
  },
  {
   "property": "C89",
   "status": "proved",
   "theorems": [
    "Osmium.time_counts"
   ],
   "note": "For all files of less than 2^64 objects, sorted or not."
  },
  {
   "property": "C90",
   "status": "proved",
   "theorems": [
    "Osmium.to_postgis_rows",
    "Osmium.to_postgis_transaction"
   ],
   "note": "For all files, sorted or not, and any database that accepts the rows; the transaction for files in the usual order."
  },
  {
   "property": "C91",
   "status": "partial",
   "theorems": [
    "Osmium.toogr_partial",
    "Osmium.toogr_stores_partial",
    "Osmium.toogr_missing_node",
    "Osmium.toogr_big_id"
   ],
   "note": "Files in the usual order, ids up to 2^53; disagreements: toogr_missing_node, toogr_big_id."
  },
  {
   "property": "C92",
   "status": "partial",
   "theorems": [
    "Osmium.mpdump_partial",
    "Osmium.relation_areas",
    "Osmium.areaPolygons_way"
   ],
   "note": "Files in the usual order without duplicates, ids below 2^62 (relations not 0), ways with nodes, tags with values. If GEOS throws while a relation is assembled the program ends; for what it printed before see C123. WKT is whatever GEOS prints."
  },
  {
   "property": "C93",
   "status": "partial",
   "theorems": [
    "Osmium.toogr2_partial",
    "Osmium.toogr2_ids"
   ],
   "note": "As C92, and ids below 2^30: above that the 32 bit id of the layer does not tell buildings apart (toogr2_ids)."
  },
  {
   "property": "C94",
   "status": "partial",
   "theorems": [
    "Osmium.range_from_history_partial",
    "Osmium.range_from_history_deleted",
    "Osmium.range_from_history_errors"
   ],
   "note": "The extract must be one that both formats can store; objects deleted in the meantime are in it (range_from_history_deleted)."
  },
  {
   "property": "C95",
   "status": "partial",
   "theorems": [
    "Osmium.store_and_debug_partial",
    "Osmium.store_and_debug_keeps_old",
    "Osmium.store_and_debug_deleted",
    "Osmium.store_and_debug_loses"
   ],
   "note": "The code does not apply the changes: old versions stay, deletions are not shown, objects of types missing in the OSM file are lost; proved is what the dump has."
  },
  {
   "property": "C96",
   "status": "partial",
   "theorems": [
    "Osmium.area_geometries_partial",
    "Osmium.area_geometries_freed",
    "Osmium.area_copy_undefined",
    "Osmium.area_replaced_leaks"
   ],
   "note": "For areas with a geometry copying and assigning behaves like values; no UB, unique ownership, lost geometries are exactly those replaced; all freed when nothing was replaced. Missing because false: copying an area without geometry is undefined, replacing a geometry loses the old one (both proved)."
  },
  {
   "property": "C97",
   "status": "partial",
   "theorems": [
    "Osmium.script_objects_partial",
    "Osmium.script_keeps_object",
    "Osmium.script_keeps_geometry"
   ],
   "note": "For all histories in which the script does not use objects or geometries of ways and areas after their callback. Missing because false otherwise: nothing keeps a script from it (both proved)."
  },
  {
   "property": "C98",
   "status": "partial",
   "theorems": [
    "Osmium.convert_program_partial",
    "Osmium.convert_others",
    "Osmium.convert_usage",
    "Osmium.convert_program_objects_partial",
    "Osmium.convert_unknown_format",
    "Osmium.convert_destroys_output",
    "Osmium.convert_same_file",
    "Osmium.convert_compressed_std",
    "Osmium.convert_reports_errors"
   ],
   "note": "Proved for all options, names and disks with known formats, an existing input that is another file than the output, and compressed data in named files; that no other file is touched and that bad usage touches nothing holds always. Missing because false: see the four negative theorems."
  },
  {
   "property": "C99",
   "status": "partial",
   "theorems": [
    "Osmium.debug_program_partial",
    "Osmium.debug_bounds_partial",
    "Osmium.debug_bounds_ambiguous"
   ],
   "note": "For texts without newlines, keys without bars and times that can be printed (C70 shows that the dump is ambiguous otherwise); the bounding box is shown with six digits only, so boxes that differ by less than a thousandth of a degree may look alike (debug_bounds_ambiguous)."
  }
 ]
}
