{
 "claims": [
  {
   "property": "C01",
   "status": "proved",
   "theorems": [
    "Verif.C01_primitive_roundtrip",
    "Verif.C01_big_endian",
    "Verif.C01_twos_complement"
   ],
   "note": ""
  },
  {
   "property": "C02",
   "status": "proved",
   "theorems": [
    "Verif.C02_string_roundtrip",
    "Verif.C02_cstring_roundtrip"
   ],
   "note": ""
  },
  {
   "property": "C03",
   "status": "proved",
   "theorems": [
    "Verif.C03_nested_roundtrip",
    "Verif.C03_sequence_roundtrip"
   ],
   "note": ""
  },
  {
   "property": "C04",
   "status": "proved",
   "theorems": [
    "Verif.C04_framing"
   ],
   "note": ""
  },
  {
   "property": "C05",
   "status": "proved",
   "theorems": [
    "Verif.C05_object",
    "Verif.C05_object_stable",
    "Verif.C05_named",
    "Verif.C05_named_empty_buffer",
    "Verif.C05_attline",
    "Verif.C05_attfill",
    "Verif.C05_attmarker",
    "Verif.C05_iofeatures",
    "Verif.C05_objstring",
    "Verif.C05_objstring_write_unsupported"
   ],
   "note": ""
  },
  {
   "property": "C06",
   "status": "proved",
   "theorems": [
    "Verif.C06_attributes_refuse_newer",
    "Verif.C06_classes_refuse_newer",
    "Verif.C06_streamer_element_refuses_newer",
    "Verif.C06_basket_refuses_newer",
    "Verif.C06_map_version_not_checked"
   ],
   "note": "All 29 versioned classes of the factory, streamer elements and baskets; maps are not in the claim and their version is shown not to be checked."
  },
  {
   "property": "C07",
   "status": "proved",
   "theorems": [
    "Verif.C07_new",
    "Verif.C07_buffer",
    "Verif.C07_object",
    "Verif.C07_put",
    "Verif.C07_basket"
   ],
   "note": "Key::new only under the stated condition; the other two constructors on either side of the limit."
  },
  {
   "property": "C08",
   "status": "proved",
   "theorems": [
    "Verif.C08_key_roundtrip"
   ],
   "note": "All fields but the date are preserved, for keys in the form the constructors produce."
  },
  {
   "property": "C09",
   "status": "partial",
   "theorems": [
    "Verif.C09_date_not_preserved",
    "Verif.C09_dir_date_not_preserved",
    "Verif.C09_packed_date_partial"
   ],
   "note": "The claim is false for the code: dates are written packed and read back as unix seconds. The negation is proved for key and directory dates; the partial theorem shows the packed word itself encodes the calendar date and time of day."
  },
  {
   "property": "C10",
   "status": "proved",
   "theorems": [
    "Verif.C10_free_segment",
    "Verif.C10_negative_bound_lost"
   ],
   "note": "Round trip and size for all non-negative bounds; a negative bound is shown not to survive."
  },
  {
   "property": "C11",
   "status": "proved",
   "theorems": [
    "Verif.C11_file_header"
   ],
   "note": ""
  },
  {
   "property": "C12",
   "status": "proved",
   "theorems": [
    "Verif.C12_dir_record"
   ],
   "note": ""
  },
  {
   "property": "C13",
   "status": "proved",
   "theorems": [
    "Verif.C13_open",
    "Verif.C13_closed",
    "Verif.C13_end"
   ],
   "note": "The file header area and, at close, the directory record are rewritten in place; everything else is disjoint."
  },
  {
   "property": "C14",
   "status": "proved",
   "theorems": [
    "Verif.C14_bytes",
    "Verif.C14_put",
    "Verif.C14_basket"
   ],
   "note": ""
  },
  {
   "property": "C15",
   "status": "proved",
   "theorems": [
    "Verif.C15_reopen",
    "Verif.C15_long_path"
   ],
   "note": "Below 2 GB, within the limits listed in the structure Holds; a path longer than 478 bytes gives a file that cannot be opened (C15_long_path)."
  },
  {
   "property": "C16",
   "status": "proved",
   "theorems": [
    "Verif.C16_last",
    "Verif.C16_missing"
   ],
   "note": "Names without a semicolon; the bytes found are those the object was written as, the object is what the reader of its class makes of them."
  },
  {
   "property": "C17",
   "status": "proved",
   "theorems": [
    "Verif.C17_cycles",
    "Verif.C17_accepted",
    "Verif.C17_slash",
    "Verif.C17_class",
    "Verif.C17_refused",
    "Verif.C17_overflow"
   ],
   "note": "C17_overflow shows what happens beyond 32767 keys of one name."
  },
  {
   "property": "C18",
   "status": "proved",
   "theorems": [
    "Verif.C18_open",
    "Verif.C18_closing"
   ],
   "note": "Every crash point, the last write possibly torn."
  },
  {
   "property": "C19",
   "status": "partial",
   "theorems": [
    "Verif.C19_false",
    "Verif.C19_dropped_partial"
   ],
   "note": "False: the header stays in the buffer until the file is dropped, for every session (C19_false). What holds once the file is dropped is C19_dropped_partial."
  },
  {
   "property": "C20",
   "status": "proved",
   "theorems": [
    "Verif.C20_entries",
    "Verif.C20_branches",
    "Verif.C20_in_order",
    "Verif.C20_unbounded"
   ],
   "note": "For every tree built by new_branch calls and every file on which write succeeds. C20_unbounded: the round bound that makes the model total plays no role. Infinite iterators are not modelled."
  },
  {
   "property": "C21",
   "status": "proved",
   "theorems": [
    "Verif.C21_fixed_size",
    "Verif.column_reopened",
    "Verif.tree_reopened"
   ],
   "note": "End to end: create, any calls, tree written, any calls, close, open, get_tree, branch lookup, as_iter. Hypotheses: the session succeeded below 2 GB, and TreeHolds (the limits of the format, spelled out in Spec/TreeSession.lean)."
  },
  {
   "property": "C22",
   "status": "proved",
   "theorems": [
    "Verif.C22_varying_size",
    "Verif.column_reopened",
    "Verif.tree_reopened"
   ],
   "note": "As C21, for strings and vectors; a vector entry of 16 MB or more, or a class record under the name of a vector class that does not describe a vector, is excluded by TreeHolds."
  },
  {
   "property": "C23",
   "status": "partial",
   "theorems": [
    "Verif.C23_short_entries_partial",
    "Verif.C23_long_entry",
    "Verif.C23_false"
   ],
   "note": "False as stated: C23_long_entry shows that any column of strings or vectors starting with an entry of 1002 bytes or more followed by 1000 small ones aborts the writer at the 1001st entry, C23_false is a concrete session. Proved: with entries of at most 1001 bytes (and at most 1 GB in the column) every call of write succeeds, after any history."
  },
  {
   "property": "C24",
   "status": "proved",
   "theorems": [
    "Verif.C24_tables",
    "Verif.C24_flushed"
   ],
   "note": "At every state reached by writing a column (any other use of the file in between) the first-entry, size and position tables are right and stay right at any later time; entries not mentioned are in the basket being filled. Values in range of their type, file below 2 GB."
  },
  {
   "property": "C25",
   "status": "proved",
   "theorems": [
    "Verif.C25_callbacks",
    "Verif.C25_all_callbacks",
    "Verif.C25_no_after"
   ],
   "note": "For every write that succeeds; the log records which function is called with what, in order."
  },
  {
   "property": "C26",
   "status": "proved",
   "theorems": [
    "Verif.C26_listing",
    "Verif.C26_first",
    "Verif.C26_none"
   ],
   "note": "Recursive listing and lookup over arbitrary branch trees; the iteration order is depth first, parents before children."
  },
  {
   "property": "C27",
   "status": "partial",
   "theorems": [
    "Verif.C27_child",
    "Verif.C27_prefix",
    "Verif.C27_absolute",
    "Verif.C27_documented",
    "Verif.C27_writer_partial",
    "Verif.C27_nested_false",
    "Verif.C27_rename_false"
   ],
   "note": "The composition of names on the reader side is proved for every nesting and every combination of attributes. Equality of names between writer and reader holds for flat structures without attributes and is false otherwise: the derived writer ignores the name of the structure and all attributes."
  },
  {
   "property": "C28",
   "status": "proved",
   "theorems": [
    "Verif.C28_class_references",
    "Verif.C28_with_repetitions",
    "Verif.C28_unregistered_class"
   ],
   "note": ""
  },
  {
   "property": "C29",
   "status": "partial",
   "theorems": [
    "Verif.C29_second_occurrence_lost",
    "Verif.C29_list_read_aborts"
   ],
   "note": "The claim is false for the code: the negation is proved (second occurrence lost, reading a list aborts)."
  },
  {
   "property": "C30",
   "status": "proved",
   "theorems": [
    "Verif.C30_list",
    "Verif.C30_objarray"
   ],
   "note": ""
  },
  {
   "property": "C31",
   "status": "proved",
   "theorems": [
    "Verif.C31_branch_record",
    "Verif.C31_fields"
   ],
   "note": "Branches without sub-branches (the writer makes no others and aborts on them)."
  },
  {
   "property": "C32",
   "status": "proved",
   "theorems": [
    "Verif.C32_tree_record",
    "Verif.C32_fields"
   ],
   "note": ""
  },
  {
   "property": "C33",
   "status": "proved",
   "theorems": [
    "Verif.C33_stored",
    "Verif.C33_plain",
    "Verif.C33_packed"
   ],
   "note": "Decompressors are arbitrary functions."
  },
  {
   "property": "C34",
   "status": "partial",
   "theorems": [
    "Verif.C34_single_partial",
    "Verif.C34_zlib_blocks_fail",
    "Verif.C34_lzma_blocks_fail",
    "Verif.C34_others_abort"
   ],
   "note": "Proved for one block of zlib, LZMA or LZ4. False for several blocks (C34_zlib_blocks_fail, C34_lzma_blocks_fail) and for ZSTD or the old algorithm of ROOT (C34_others_abort)."
  },
  {
   "property": "C35",
   "status": "proved",
   "theorems": [
    "Verif.C35_registered",
    "Verif.C35_once"
   ],
   "note": ""
  },
  {
   "property": "C36",
   "status": "partial",
   "theorems": [
    "Verif.C36_inside_partial",
    "Verif.C36_width",
    "Verif.C36_short",
    "Verif.C36_cstring_false"
   ],
   "note": "Every reader of the library except an unterminated C string stays inside the buffer; C36_cstring_false is the counterexample (cursor one past the end)."
  },
  {
   "property": "C37",
   "status": "partial",
   "theorems": [
    "Verif.C37_short_file_partial",
    "Verif.C37_payload_partial",
    "Verif.C37_short_false",
    "Verif.C37_string_false",
    "Verif.C37_negative_false",
    "Verif.C37_magic_false"
   ],
   "note": "False in general: the negations are proved with concrete inputs; the two partial theorems cover the cases that do report errors."
  },
  {
   "property": "C38",
   "status": "partial",
   "theorems": [
    "Verif.C38_refused",
    "Verif.C38_own_type_partial",
    "Verif.C38_false"
   ],
   "note": "Refusal proved for every branch; a branch of a written tree accepts its own type and refuses every other type. False as stated: a branch whose name contains a dimension such as a[3] has item type int32_t[3] and refuses the type it was written with (C38_false); the partial theorem excludes square brackets in the name."
  },
  {
   "property": "C39",
   "status": "partial",
   "theorems": [
    "Verif.C39_present",
    "Verif.C39_absent_partial",
    "Verif.C39_absent_false"
   ],
   "note": "The header is skipped when present; when absent, values whose first byte is not 64 are read unchanged, and C39_absent_false shows the rest are misread."
  },
  {
   "property": "C40",
   "status": "partial",
   "theorems": [
    "Verif.C40_rows_partial",
    "Verif.C40_cuts_partial",
    "Verif.C40_empty_basket_false",
    "Verif.C40_embedded_false"
   ],
   "note": "Proved for all chunk lists without empty baskets. False otherwise: an empty basket aborts the iteration, and a basket embedded in the record of a sub-branch is cut into one-byte cells whatever the leaf says."
  },
  {
   "property": "C41",
   "status": "proved",
   "theorems": [
    "Verif.C41_streamer_record",
    "Verif.C41_fields",
    "Verif.C41_named_base_type_lost",
    "Verif.C41_stlstring_unsupported"
   ],
   "note": "TNamed/TObject bases come back with the general base type, sizes of basic members are recomputed."
  },
  {
   "property": "C42",
   "status": "proved",
   "theorems": [
    "Verif.C42_color",
    "Verif.C42_enum"
   ],
   "note": ""
  },
  {
   "property": "C43",
   "status": "partial",
   "theorems": [
    "Verif.C43_partial",
    "Verif.C43_nil_false"
   ],
   "note": "Proved for every supported object kind, any buffer content and offset; the full claim fails for the null object, which appends four bytes and reports zero (C43_nil_false)."
  },
  {
   "property": "C44",
   "status": "partial",
   "theorems": [
    "Verif.C44_large_file_lost",
    "Verif.C44_false"
   ],
   "note": "The property is false and its negation is proved for every session: if the file ends between 2^31 and 2^32 bytes when closed, all calls and close succeed but the file cannot be opened (the directory record keeps 32-bit positions). C44_false exhibits such a session. Missing: files ending between 2 000 000 000 and 2^31 bytes, and above 2^32. Below 2 000 000 000 bytes see C15."
  },
  {
   "property": "C45",
   "status": "partial",
   "theorems": [
    "Verif.C45_semicolon_unreadable",
    "Verif.C45_semicolon_accepted",
    "Verif.C45_lookup_partial"
   ],
   "note": "The property is false for names with a semicolon (negation proved); it is proved for all others."
  },
  {
   "property": "C46",
   "status": "proved",
   "theorems": [
    "Verif.C46_identified",
    "Verif.C46_refused"
   ],
   "note": ""
  },
  {
   "property": "C47",
   "status": "partial",
   "theorems": [
    "Verif.C47_answers",
    "Verif.C47_stored_partial",
    "Verif.C47_deep",
    "Verif.C47_nothing",
    "Verif.C47_false",
    "Verif.C47_flat",
    "Verif.C47_reopened_partial"
   ],
   "note": "False as stated: values of a field d structures deep come d rounds late, so d-1 of them are lost, and all when the outermost structure has no field of its own. Proved for every shape: exactly which values each branch has when the file was closed and opened again (C47_reopened_partial); complete for fields at most one structure deep beside a direct field; flat structures are the same as giving each field's values to a branch."
  },
  {
   "property": "C48",
   "status": "proved",
   "theorems": [
    "Verif.C48_storable",
    "Verif.C48_table",
    "Verif.C48_found",
    "Verif.C48_order"
   ],
   "note": "All 85 classes of the table are in the model (Model/Dictionary.lean, generated from the Rust table)."
  },
  {
   "property": "C49",
   "status": "proved",
   "theorems": [
    "Verif.C49_closed",
    "Verif.C49_vectors",
    "Verif.C49_written"
   ],
   "note": "For sessions within the limits of Holds. Objects whose class refers to itself (leaves) make the search for dependencies recurse for ever; they cannot be stored through the public interface. C49_written: the same about vectors with no hypothesis that a step succeeds."
  },
  {
   "property": "C50",
   "status": "proved",
   "theorems": [
    "Verif.C50_total"
   ],
   "note": "Totality and round trip with the bundled dictionary; no hypothesis assumes that a step succeeds. Memory addresses are model inputs: those of the dictionary's records lie above the counters used for the records made on the way."
  },
  {
   "property": "C51",
   "status": "proved",
   "theorems": [
    "Verif.C51_set",
    "Verif.C51_map",
    "Verif.C51_headers",
    "Verif.C51_negative"
   ],
   "note": "Entries of a TBranchElement with a table of positions; the bytes are those ROOT stores (this library does not write sets or maps). A HashSet/HashMap is a list without repetition, its order being arbitrary."
  },
  {
   "property": "C52",
   "status": "partial",
   "theorems": [
    "Verif.C52_slice_partial",
    "Verif.C52_false",
    "Verif.C52_cut",
    "Verif.C52_sized"
   ],
   "note": "False: when a basket has as many numbers as the branch has entries the table of positions is ignored (C52_false). Proved for all other baskets (C52_slice_partial), and that a cut entry aborts."
  },
  {
   "property": "C53",
   "status": "partial",
   "theorems": [
    "Verif.C53_vectors_partial",
    "Verif.C53_sets_partial",
    "Verif.C53_members_partial",
    "Verif.C53_slices_partial",
    "Verif.C53_false",
    "Verif.C53_members_false"
   ],
   "note": "Proved for the spellings of cppSpellings (18 names) at any nesting and spacing and for the codes of memberCodes. Missing, and false in the code: char, signed char, unsigned char, long long, Long64_t in vectors; Long64_t, bool, Double32_t members."
  },
  {
   "property": "C54",
   "status": "partial",
   "theorems": [
    "Verif.C54_shown_partial",
    "Verif.C54_containers_partial",
    "Verif.C54_written_partial",
    "Verif.C54_false"
   ],
   "note": "Proved for numbers, booleans, strings, arrays of numbers, nested vectors of these, Slice and sets of numbers, and for every column of a written tree whose name has no square brackets. Missing: TString, arrays of arrays and of strings (false in the code), maps."
  },
  {
   "property": "C55",
   "status": "partial",
   "theorems": [
    "Verif.C55_described_partial",
    "Verif.C55_false"
   ],
   "note": "Everything but the size of an item of string columns and the title letter of booleans, which the code writes differently from ROOT; arrays of up to 2^31 bytes."
  },
  {
   "property": "C56",
   "status": "partial",
   "theorems": [
    "Verif.C56_reads",
    "Verif.C56_rows",
    "Verif.C56_missing",
    "Verif.C56_mismatch",
    "Verif.C56_columns",
    "Verif.C56_roundtrip_partial",
    "Verif.C56_session_partial",
    "Verif.C56_nested_false"
   ],
   "note": "Proved for columns under the documented names and any structure; between derived writer and derived reader for flat structures without attributes, and for structures in structures when the names under which fields are read are the names of the fields; false for other nested structures, which the writer stores under other names (C56_nested_false) and for renamed fields (C27_rename_false)."
  },
  {
   "property": "C57",
   "status": "proved",
   "theorems": [
    "Verif.C57_slices",
    "Verif.C57_uneven"
   ],
   "note": "Equal lengths: transposed. Different lengths, for two fields: the program aborts when the last field has more items; when it has fewer, the items left over are dropped (the remaining structures are right)."
  },
  {
   "property": "C58",
   "status": "partial",
   "theorems": [
    "Verif.C58_branches",
    "Verif.C58_tree_partial",
    "Verif.C58_false"
   ],
   "note": "For every session that writes a tree: both sizes of every branch are the sum of its records in the reopened file; the tree's size before compression is the sum of its entries. False in the code: the tree's size after compression is always 0 and its size before compression leaves out the records (C58_false)."
  },
  {
   "property": "C59",
   "status": "partial",
   "theorems": [
    "Verif.C59_user_info_partial",
    "Verif.C59_false"
   ],
   "note": "Texts and maps of texts are read, whatever the tree; false for objects attached twice (the reader aborts) and for classes that are not registered (the tree is unreadable)."
  },
  {
   "property": "C60",
   "status": "partial",
   "theorems": [
    "Verif.C60_basket",
    "Verif.C60_plain",
    "Verif.C60_vectors",
    "Verif.C60_keeps",
    "Verif.C60_plain_kept_partial",
    "Verif.C60_vectors_kept_partial",
    "Verif.C60_false"
   ],
   "note": "Proved at the level of bytes for baskets in the file (any number, compressed in one block or not, big or small keys, with or without table). With a basket kept in the record of the branch all entries are given but those of that basket come first, so the order is wrong when there are others (C60_false). Several compressed blocks in one basket: see C34."
  },
  {
   "property": "C61",
   "status": "partial",
   "theorems": [
    "Verif.C61_record",
    "Verif.C61_file",
    "Verif.C61_branches",
    "Verif.C61_entries",
    "Verif.C61_vectors",
    "Verif.C61_false"
   ],
   "note": "Proved for all trees that have none of the aliases, indices, friends or reference table and only leaves of the registered classes; C61_false: with one of those objects reading the tree aborts, and a leaf of another class (TLeafG, TLeafF16, TLeafD32, TLeafObject) refuses the whole tree. Branches of versions 6 to 9 are modelled but not covered by the theorems; user information is C59."
  },
  {
   "property": "C62",
   "status": "partial",
   "theorems": [
    "Verif.C62_printed_partial",
    "Verif.C62_values_partial",
    "Verif.C62_false",
    "Verif.C62_others_false",
    "Verif.C62_inside_false"
   ],
   "note": "False for columns of Vec<i64>/Vec<u64> (their values are left out), for files whose first object is not a tree (both programs abort) and for types with an array inside; proved for every other column of every list of trees, from the writing program to the printed values. Missing besides: column names with square brackets (C38)."
  },
  {
   "property": "C63",
   "status": "partial",
   "theorems": [
    "Verif.C63_open_partial",
    "Verif.C63_find",
    "Verif.C63_tree",
    "Verif.C63_entries",
    "Verif.C63_long_name_false",
    "Verif.C63_remark_false",
    "Verif.C63_pointer_false"
   ],
   "note": "Proved for files whose name takes at most 1000 bytes with its key and whose classes have remarks with a bracket in first place or none, and no pointers to objects that are not a TObject. False of the others (C63_long_name_false, C63_remark_false, C63_pointer_false). Containers called multimap or set must be named so (containerOk). Values through a tree: numbers, arrays and texts (C63_entries); vectors with C63_tree and C61_vectors."
  },
  {
   "property": "C64",
   "status": "partial",
   "theorems": [
    "Verif.C64_tree_record_partial",
    "Verif.C64_tree_in_file",
    "Verif.C64_class_list_partial",
    "Verif.C64_class_list_tree_partial",
    "Verif.C64_base_type_false",
    "Verif.C64_features_false"
   ],
   "note": "Trees written in sessions are exactly the records of the format, at the position of their key. The list of classes is the one of the format but for the types of the bases TObject and TNamed (0 instead of 66 and 67), which is proved false; tree records with clusters are not covered, those with bits of features are proved false."
  },
  {
   "property": "C65",
   "status": "proved",
   "theorems": [
    "Verif.C65_deterministic",
    "Verif.C65_bundled"
   ],
   "note": "Same outcome and same sequence of writes for any two placements in memory, counters and hash orders; addresses of different objects differ and are not among the numbers given by the process."
  },
  {
   "property": "C66",
   "status": "proved",
   "theorems": [
    "Verif.C66_walk",
    "Verif.C66_only",
    "Verif.C66_listed",
    "Verif.C66_open"
   ],
   "note": "sessions below 2 GB; before close if the last thing stored is not empty"
  },
  {
   "property": "C67",
   "status": "proved",
   "theorems": [
    "Verif.C67_root_file"
   ],
   "note": "For every session below 2 GB whose stored objects are not of class TBasket (baskets go through their own call and are in no directory)."
  },
  {
   "property": "C68",
   "status": "proved",
   "theorems": [
    "Verif.C68_baskets",
    "Verif.C68_file"
   ],
   "note": "the file ends below 2 GB; for whole files entries of at most 1001 bytes (C50)"
  },
  {
   "property": "C69",
   "status": "partial",
   "theorems": [
    "Verif.C69_limit",
    "Verif.C69_abort",
    "Verif.C69_numbers_partial",
    "Verif.C69_too_many",
    "Verif.C69_false"
   ],
   "note": "False as stated: filling the 32767th basket overflows a 16 bit integer and aborts (debug build; a release build wraps). The exact number of numbers a one-column file can have is proved from both sides, for all values; for any column being written, with anything else going on, the limit and the abort at the limit."
  },
  {
   "property": "C70",
   "status": "partial",
   "theorems": [
    "Verif.C70_kept",
    "Verif.C70_again",
    "Verif.C70_false",
    "Verif.C70_aborted",
    "Verif.C70_tree_once"
   ],
   "note": "False as stated: closing again never succeeds and a tree is not written twice. Proved: everything readable after the first close stays readable at every moment of later calls; after the failed second close the file opens with the objects of before and since, under the room and naming conditions of the theorem."
  },
  {
   "property": "C71",
   "status": "partial",
   "theorems": [
    "Verif.C71_listed_partial",
    "Verif.C71_kept_partial",
    "Verif.C71_lost",
    "Verif.C71_tree_lost",
    "Verif.C71_false"
   ],
   "note": "False: an object with 32768 to 65535 bytes in front of it (a tree named with 32730 to 65497 bytes) is stored and listed but aborts the program that asks for it; a tree of 40000 letters is the witness. All names are listed whatever their lengths; objects with at most 32767 bytes in front are read back. Missing: 65536 bytes and more, names of columns."
  },
  {
   "property": "C72",
   "status": "partial",
   "theorems": [
    "Verif.C72_stored",
    "Verif.C72_ended_partial",
    "Verif.C72_false"
   ],
   "note": "False as stated: an iterator that has answered None is asked again as long as another branch has values, and what it gives then is stored as the next entry of its column. Proved for all iterators: exactly which values are stored and read back after close and open; for iterators that stay at None the statement holds."
  },
  {
   "property": "C73",
   "status": "partial",
   "theorems": [
    "Verif.C73_member_partial",
    "Verif.C73_file_partial",
    "Verif.C73_tstring",
    "Verif.C73_false"
   ],
   "note": "False as stated: with records of several versions of a class the last one decides whatever the version of the branch. Proved for files with one record of each class."
  },
  {
   "property": "C74",
   "status": "proved",
   "theorems": [
    "Verif.C74_all_or_nothing",
    "Verif.C74_everything",
    "Verif.C74_trees"
   ],
   "note": "between any two writes of a session, and inside every write except the one of the directory record and the last header"
  },
  {
   "property": "C75",
   "status": "partial",
   "theorems": [
    "Verif.C75_refused_partial",
    "Verif.C75_read_partial",
    "Verif.C75_false"
   ],
   "note": "Columns of maps are read as the maps stored and refused as every other type; false the other way: as_iter accepts any column as maps of any type (C75_false)."
  },
  {
   "property": "C76",
   "status": "partial",
   "theorems": [
    "Verif.C76_text_partial",
    "Verif.C76_column_partial",
    "Verif.C76_vectors_partial",
    "Verif.C76_false"
   ],
   "note": "False: a text that is not UTF-8 is silently given as the empty text (C76_false, for every such text). Proved: everything around it and every UTF-8 text comes back as stored."
  },
  {
   "property": "C77",
   "status": "partial",
   "theorems": [
    "Verif.C77_short_partial",
    "Verif.C77_false"
   ],
   "note": "entries of 2^24 + 4 bytes or more are never read (C77_false); shorter ones are"
  }
 ]
}