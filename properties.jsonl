{"id": "C01", "title": "Primitive values survive a write and a read", "statement": "Any value of a supported primitive type (bool, i8..i64, u8..u64, f32/f64 bit pattern) written to a write buffer is read back identical by the matching read, from any position in the buffer, the read consumes exactly the bytes the write produced, and the bytes before and after are untouched.", "quantifier": "every primitive type, every value of that type, every prefix and suffix of surrounding bytes", "why_tests_cant": "2^64 values per type and arbitrarily many positions; unit tests sample a handful.", "anchors": ["oxyroot/src/rbytes/wbuffer.rs: WBuffer::write_*", "oxyroot/src/rbytes/rbuffer.rs: RBuffer::read_*", "oxyroot/src/rbytes/mod.rs: Marshaler/Unmarshaler for primitives"]}
{"id": "C02", "title": "Strings survive a write and a read", "statement": "Every string of fewer than 2^31 bytes, including the empty one and those on both sides of the 254/255 byte boundary, is read back byte for byte; the encoding is 1+n bytes below 255 bytes and 5+n bytes from 255 on; NUL terminated class names without NUL and shorter than the read limit are read back exactly.", "quantifier": "every byte string, every position, every following byte sequence", "why_tests_cant": "unbounded string lengths; the length switch makes the interesting cases data dependent.", "anchors": ["oxyroot/src/rbytes/wbuffer.rs: write_string, write_cstring", "oxyroot/src/rbytes/rbuffer.rs: read_string, read_cstring", "oxyroot/src/root.rs: tstring_sizeof"]}
{"id": "C03", "title": "Nested containers survive a write and a read", "statement": "A value built from primitives, strings, vectors and fixed size arrays nested to any depth is read back equal to what was written, when every vector has fewer than 2^31 elements and every string fewer than 2^31 bytes; the reader stops exactly at the end of the value.", "quantifier": "every value of every such nested type", "why_tests_cant": "the type language is infinite and so is every type in it.", "anchors": ["oxyroot/src/rbytes/mod.rs: Marshaler/Unmarshaler for Vec<T>, [T;N], String"]}
{"id": "C04", "title": "A record's byte count frames exactly its body", "statement": "For every object written with a byte-count/version header and whose body is below 2^30-2 bytes, the header read back gives the version that was written and a length such that start+4+length is the first byte after the object, so a reader can always skip it; nothing but the four placeholder bytes of that header is rewritten.", "quantifier": "every body, every nesting of such records, every version, every buffer contents before it", "why_tests_cant": "byte counts are back-patched after the body is written; correctness depends on all nested bodies.", "anchors": ["oxyroot/src/rbytes/wbuffer.rs: write_header, set_header, write_in_place", "oxyroot/src/rbytes/rbuffer.rs: read_header"]}
{"id": "C05", "title": "Basic ROOT objects survive a write and a read", "statement": "TObject, TNamed, TAttLine, TAttFill, TAttMarker and the I/O-features record are read back with the same fields: a TObject keeps its id and flag bits (the on-heap flag is always set by the reader; for a referenced object only the low 24 id bits survive), TNamed keeps name and title, attribute records keep colour, style and width/size, and the I/O-features byte is kept.", "quantifier": "every field value", "why_tests_cant": "field combinations and the referenced/unreferenced branch cannot be enumerated.", "anchors": ["oxyroot/src/rbase/object.rs", "oxyroot/src/rbase/named.rs", "oxyroot/src/rbase/attline.rs", "oxyroot/src/rbase/attfill.rs", "oxyroot/src/rbase/attmarker.rs", "oxyroot/src/rtree/tree/tio_features.rs"]}
{"id": "C06", "title": "Records of a newer format version are refused, not misread", "statement": "Reading a versioned record (attributes, lists, object arrays, leaves, branches, trees, baskets, streamer records) whose version is above the supported one returns an error whatever the bytes that follow, and never a value.", "quantifier": "every version above the supported one, every following byte sequence", "why_tests_cant": "the rest of the input is arbitrary.", "anchors": ["oxyroot/src/rbytes/mod.rs: ensure_maximum_supported_version", "oxyroot/src/rbase/att*.rs", "oxyroot/src/rcont/*.rs", "oxyroot/src/rtree/leaf.rs", "oxyroot/src/rtree/branch/tbranch.rs"]}
{"id": "C07", "title": "A directory key occupies exactly the space it declares", "statement": "A key built for any name, title and class writes exactly the number of bytes its key-length field declares (19 bytes fewer for a basket key, whose basket header fills the rest), so the payload that is placed key-length bytes after the key start neither overlaps the key nor leaves a gap, as long as the file stays on one side of the 2 GB limit during the call.", "quantifier": "every name, title, class and file size on either side of the limit", "why_tests_cant": "depends on three unbounded strings with a length switch at 255 and on the file size.", "anchors": ["oxyroot/src/riofs/key.rs: key_len_for, Marshaler for Key, Key::new*"]}
{"id": "C08", "title": "A directory key survives a write and a read", "statement": "Every field of a key except the date (sizes, cycle, positions, class, name, title, version) is read back as written, in the 4-byte form and in the 8-byte (large file) form.", "quantifier": "every key with fields in range", "why_tests_cant": "unbounded strings and 64-bit positions.", "anchors": ["oxyroot/src/riofs/key.rs: Marshaler/Unmarshaler for Key"]}
{"id": "C09", "title": "Key and directory dates survive a write and a read", "statement": "The creation date stored in a key or directory record is the date a reader reports.", "quantifier": "every date", "why_tests_cant": "a wrong date is only visible when the decoded date is compared with the encoded one over the whole range.", "anchors": ["oxyroot/src/riofs/utils.rs: datetime_to_u32", "oxyroot/src/riofs/key.rs: unmarshal", "oxyroot/src/riofs/dir.rs: unmarshal"]}
{"id": "C10", "title": "Free segments survive a write and a read and have the declared size", "statement": "A free segment record written and read gives back the same bounds, and the number of bytes written equals the size used when space for the record is reserved.", "quantifier": "every pair of non-negative 64-bit bounds with first <= last", "why_tests_cant": "64-bit bounds with a format switch at 2 GB.", "anchors": ["oxyroot/src/riofs/blocks.rs: FreeSegments"]}
{"id": "C11", "title": "The file header survives a write and a read and never reaches the first record", "statement": "The header written by the library is read back field by field, both in the small and in the large (above 2 GB) layout, and its size is below 100, the position where the first record starts.", "quantifier": "every header with fields in range", "why_tests_cant": "layout switch on three 64-bit positions.", "anchors": ["oxyroot/src/riofs/file.rs: write_header, read_header"]}
{"id": "C12", "title": "The directory record survives a write and a read inside its reserved room", "statement": "The directory record is read back with the same counts and positions and never exceeds the room reserved for it when the file is created.", "quantifier": "every directory record with fields in range", "why_tests_cant": "positions are 64-bit and the record is rewritten in place at close.", "anchors": ["oxyroot/src/riofs/dir.rs: Marshaler/Unmarshaler for TDirectoryFile, record_size, write_header"]}
{"id": "C13", "title": "Space is never handed out twice", "statement": "In any writing session (create, any sequence of tree writes, puts and basket flushes, close) on a file that stays below 2 GB, all records are placed in pairwise disjoint ranges of the file, each at or after byte 100 and ending at or before the recorded end of file, and the recorded end never decreases.", "quantifier": "every sequence of writing operations with every payload size", "why_tests_cant": "the set of histories is infinite.", "anchors": ["oxyroot/src/riofs/file.rs: set_end, put, close", "oxyroot/src/riofs/key.rs: Key::new, new_from_buffer, new_from_object", "oxyroot/src/rtree/wbasket.rs: write_to_file"]}
{"id": "C14", "title": "Later writes never corrupt earlier data", "statement": "The bytes of a payload stored in the file at any moment of a session are still the bytes found at its recorded position after any later operation of the session, including close.", "quantifier": "every payload, every later history", "why_tests_cant": "needs an argument over all later operations.", "anchors": ["oxyroot/src/riofs/file.rs: write_at, put, write_header, close", "oxyroot/src/riofs/dir.rs: save, write_header", "oxyroot/src/rtree/wbasket.rs: write_to_file"]}
{"id": "C15", "title": "A closed file reopens with exactly the keys that were put", "statement": "After create, any sequence of puts and close, opening the file succeeds and lists exactly the put names in order, with the cycle and class each was given, provided the file is smaller than 2 GB and the path is short enough for the directory name record to stay within the reader's 1000 byte limit.", "quantifier": "every sequence of puts, every payload", "why_tests_cant": "end-to-end over every history and payload.", "anchors": ["oxyroot/src/riofs/file.rs: create, put, close, open, read_header, keys_name", "oxyroot/src/riofs/dir.rs: save_keys, read_keys, read_dir_info"]}
{"id": "C16", "title": "Getting a name returns the payload put last under that name", "statement": "After create, any sequence of puts and close, looking a name up finds the payload most recently put under that name (fewer than 32768 puts per name), byte for byte; a name never put is reported as an error, never as another object.", "quantifier": "every sequence of puts, every name", "why_tests_cant": "depends on the whole history of cycles.", "anchors": ["oxyroot/src/riofs/dir.rs: get_object", "oxyroot/src/riofs/key.rs: object, load", "oxyroot/src/riofs/file.rs: put"]}
{"id": "C17", "title": "Versions of one name get distinct increasing cycles, one class per name", "statement": "Every accepted put gives a cycle one above the largest cycle already used for that name (1 for a new name), up to 32767 objects per name; a put whose class differs from an existing key of the same name, or whose name contains a slash, is refused and leaves the directory and the file unchanged.", "quantifier": "every directory state, every put", "why_tests_cant": "stateful over unbounded histories.", "anchors": ["oxyroot/src/riofs/file.rs: put"]}
{"id": "C18", "title": "A file whose writer stopped before close is never opened as a complete file", "statement": "If the process stops at any point of a session before the directory record is rewritten by close, opening what is on disk fails; it never reports success with a partial or empty key list.", "quantifier": "every session, every crash point before the directory record is rewritten, including a torn last write", "why_tests_cant": "crash points times histories cannot be enumerated.", "anchors": ["oxyroot/src/riofs/file.rs: create, close, open", "oxyroot/src/riofs/dir.rs: read_keys, save"]}
{"id": "C19", "title": "After close returns the file on disk is complete", "statement": "When close has returned successfully, another process opening the path sees the complete file.", "quantifier": "every session", "why_tests_cant": "it depends on the buffering layer and not on the contents, a test in one process closes over it by dropping the file first.", "anchors": ["oxyroot/src/riofs/file.rs: close, write_header, RootFileWriter::write_at"]}
{"id": "C20", "title": "A tree has as many entries as its longest branch", "statement": "After writing a tree whose branches are fed by iterators of any (also different) lengths, the tree's entry count is the length of the longest and every branch's own entry count is the length of its iterator; each iterator's items are consumed in order, exactly once.", "quantifier": "every number of branches, every list of iterator lengths", "why_tests_cant": "unbounded numbers of branches and entries.", "anchors": ["oxyroot/src/rtree/tree/writer.rs: WriterTree::write", "oxyroot/src/rtree/branch/wbranch.rs: WBranch::write"]}
{"id": "C21", "title": "Fixed-size branches read back the written sequence", "statement": "For a branch of a primitive or fixed-size-array type, of a tree written in a session (other objects may be stored before and after) and within the limits of the format, opening the closed file, getting the tree, looking the branch up by name and iterating over it with the type it was written with yields exactly the sequence of items the writer consumed, in order, whatever the number of baskets it was split over. (The name of the branch has no square brackets: see C38.)", "quantifier": "every item type of fixed size, every sequence of items", "why_tests_cant": "basket splits depend on the data; sequences are unbounded.", "anchors": ["oxyroot/src/rtree/branch/wbranch.rs: write, flush", "oxyroot/src/rtree/wbasket.rs", "oxyroot/src/rtree/basket.rs", "oxyroot/src/rtree/branch/tbranch.rs: get_baskets_buffer", "oxyroot/src/rtree/branch/mod.rs: get_basket"]}
{"id": "C22", "title": "Variable-size branches read back the written sequence", "statement": "For a branch of strings or of vectors, of a tree written in a session and within the limits of the format (a vector takes less than 16 MB), opening the closed file, getting the tree, looking the branch up by name and iterating over it with the type it was written with yields exactly the sequence of items the writer consumed, in order, whatever the number of baskets. (The name of the branch has no square brackets: see C38.)", "quantifier": "every sequence of strings or vectors", "why_tests_cant": "entry offsets are relocated on write and on read and depend on all previous sizes.", "anchors": ["oxyroot/src/rtree/wbasket.rs: update, write_to_file", "oxyroot/src/rtree/basket.rs: raw_data", "oxyroot/src/rtree/branch/tbranch_element.rs: get_baskets_buffer"]}
{"id": "C23", "title": "Writing a branch of strings or vectors never panics", "statement": "Appending items of any size in any order to a branch of strings or vectors never aborts the writer.", "quantifier": "every sequence of item sizes", "why_tests_cant": "the failing sequences need one item above 1000 bytes and more than 1000 entries in the same basket.", "anchors": ["oxyroot/src/rtree/wbasket.rs: update", "oxyroot/src/rtree/branch/wbranch.rs: write"]}
{"id": "C24", "title": "A branch's basket table locates every entry", "statement": "At every moment of writing, the branch's first-entry table starts at 0, is non-decreasing, has one more element than baskets written, its last element is the number of entries flushed, and basket i holds exactly the entries between its i-th and (i+1)-th elements; sizes and positions tables have one element per basket and describe where that basket is in the file.", "quantifier": "every sequence of writes and flushes", "why_tests_cant": "invariant over all histories.", "anchors": ["oxyroot/src/rtree/branch/wbranch.rs: write, flush, create_new_basket"]}
{"id": "C25", "title": "Callbacks are called once per entry round and branch, in order", "statement": "During a tree write each registered callback sees: one Before per round followed by one Branch(name) per branch in branch order, for one more round than the tree has entries; the After state is never delivered.", "quantifier": "every set of branches, iterators and callbacks", "why_tests_cant": "ordering over unbounded runs.", "anchors": ["oxyroot/src/rtree/tree/writer.rs: WriterTree::write"]}
{"id": "C26", "title": "Branch lookup finds a branch exactly when it is listed", "statement": "Looking a branch name up in a tree returns a branch if and only if some branch in the recursive listing has that name, and it is the first such branch of the listing.", "quantifier": "every tree of nested branches, every name", "why_tests_cant": "arbitrary nesting.", "anchors": ["oxyroot/src/rtree/tree/reader.rs: branch, branches_r", "oxyroot/src/rtree/branch/mod.rs: branches_r, branch", "oxyroot/src/rtree/branch/tbranch.rs: branch"]}
{"id": "C27", "title": "Branch names of derived structures follow the documented composition", "statement": "The final branch name of a field is the parent's final name and a dot (when there is a named parent), the prefix, then the field name; absolute names ignore the parent; equal paths of fields give equal names on the writer and on the reader side.", "quantifier": "every chain of nested field names, prefixes and absolute markers", "why_tests_cant": "arbitrary nesting depth and option combinations.", "anchors": ["oxyroot/src/rtree/tree/branch_name.rs", "oxyroot/src/../../oxyroot_derive/src/lib.rs"]}
{"id": "C28", "title": "Objects written by class reference are read back with their own class", "statement": "A sequence of objects written through the class-tag mechanism into one buffer, with repeated classes, is read back as the same sequence of classes and contents: the second and later objects of a class, stored with a back-reference instead of the class name, get the right class.", "quantifier": "every sequence of objects over any set of registered class names, every buffer position below 2^30", "why_tests_cant": "back references depend on the positions of all previous objects.", "anchors": ["oxyroot/src/rbytes/wbuffer.rs: write_object_any, write_class", "oxyroot/src/rbytes/rbuffer.rs: read_object_any_into"]}
{"id": "C29", "title": "An object written twice is read back twice", "statement": "If the same object appears twice in one container, the second appearance is read back as that object.", "quantifier": "every sequence of objects with repetitions", "why_tests_cant": "aliasing patterns are unbounded.", "anchors": ["oxyroot/src/rbytes/wbuffer.rs: write_class (refs_p)", "oxyroot/src/rbytes/rbuffer.rs: read_object_any_into"]}
{"id": "C30", "title": "Lists and object arrays survive a write and a read", "statement": "A TList or TObjArray of distinct objects is read back with the same elements in the same order and the same name; the reader ends exactly at the end of the record.", "quantifier": "every list of objects", "why_tests_cant": "unbounded lists with class back-references inside.", "anchors": ["oxyroot/src/rcont/list.rs", "oxyroot/src/rcont/objarray.rs"]}
{"id": "C31", "title": "Branch metadata survives a write and a read", "statement": "A branch record is read back with the same name, title, entry count, basket sizes, first entries and basket positions, for any number of baskets (tables are padded to ten slots on disk and trimmed by the reader).", "quantifier": "every branch state reachable by the writer", "why_tests_cant": "unbounded number of baskets.", "anchors": ["oxyroot/src/rtree/branch/tbranch.rs: Marshaler/Unmarshaler for TBranch", "oxyroot/src/rtree/leaf.rs"]}
{"id": "C32", "title": "Tree metadata survives a write and a read", "statement": "A tree record is read back with the same name, entry count and list of branches.", "quantifier": "every tree with any number of branches", "why_tests_cant": "nested records with class references at every level.", "anchors": ["oxyroot/src/rtree/tree/writer.rs: marshal", "oxyroot/src/rtree/tree/reader.rs: unmarshal"]}
{"id": "C33", "title": "Only uncompressed payloads are written, and what is written uncompressed is read uncompressed", "statement": "The writer stores every payload unchanged, and the reader takes the uncompressed path exactly for keys whose stored size equals the object size, returning the stored bytes.", "quantifier": "every payload", "why_tests_cant": "every payload size.", "anchors": ["oxyroot/src/rcompress.rs: compress", "oxyroot/src/riofs/key.rs: load, is_compressed"]}
{"id": "C34", "title": "Compressed payloads of several blocks are decompressed", "statement": "A payload stored as a sequence of compressed blocks is decompressed to the concatenation of the blocks.", "quantifier": "every sequence of blocks", "why_tests_cant": "blocks are only split above 16 MB, which tests do not reach.", "anchors": ["oxyroot/src/rcompress.rs: decompress"]}
{"id": "C35", "title": "Streamer information is recorded once per class", "statement": "After any sequence of registrations the list of streamer records in the file holds each class name once, in order of first registration, with the first registered record.", "quantifier": "every sequence of registrations", "why_tests_cant": "stateful over unbounded histories.", "anchors": ["oxyroot/src/riofs/file.rs: add_streamer_info, RootFileStreamerInfoContext"]}
{"id": "C36", "title": "A cursor never moves backwards and never leaves the buffer on a successful read", "statement": "Every successful primitive, string, header or container read leaves the cursor between its old position and the end of the data; a read that needs more bytes than remain never returns a value.", "quantifier": "every byte sequence, every read, every composition of reads", "why_tests_cant": "inputs are arbitrary bytes.", "anchors": ["oxyroot/src/rbytes/rbuffer.rs: Rbuff::extract_*, RBuffer::read_*"]}
{"id": "C37", "title": "Reading truncated or hostile data returns an error", "statement": "Reading from a buffer that is too short, or whose length fields are negative, returns an error value to the caller instead of aborting the program.", "quantifier": "every byte sequence", "why_tests_cant": "inputs are arbitrary bytes.", "anchors": ["oxyroot/src/rbytes/rbuffer.rs: extract_n, read_string", "oxyroot/src/rbytes/mod.rs: Unmarshaler for Vec<T>"]}
{"id": "C38", "title": "Iterating a branch with the wrong type is refused", "statement": "Asking a branch for items of a type whose accepted C++ names do not include the branch's item type returns a type-mismatch error, and a branch written from a primitive type accepts iteration with that same type.", "quantifier": "every branch, every primitive type", "why_tests_cant": "type names are computed from titles by pattern matching.", "anchors": ["oxyroot/src/rtree/branch/mod.rs: as_iter", "oxyroot/src/rtree/branch/tbranch.rs: item_type_name", "oxyroot/src/rtree/leaf.rs: type_name"]}
{"id": "C39", "title": "Optional element headers are skipped exactly when present", "statement": "Reading a vector or string element with a declared header size skips the header when the element starts with one and the declared size fits, and leaves an element without a header untouched, so the value is the same in both cases.", "quantifier": "every element, every header size", "why_tests_cant": "depends on the first byte of arbitrary data.", "anchors": ["oxyroot/src/rbytes/rbuffer.rs: do_skip_header, set_skip_header", "oxyroot/src/rbytes/mod.rs: Unmarshaler for Vec, String"]}
{"id": "C40", "title": "Split branches are zipped entry by entry", "statement": "Iterating a branch that has sub-branches yields for entry i the concatenation of the i-th fixed-size chunks of all sub-branches, for every entry, independently of how each sub-branch is cut into baskets.", "quantifier": "every number of sub-branches, every basket cut with equal totals", "why_tests_cant": "basket boundaries of different sub-branches interleave arbitrarily.", "anchors": ["oxyroot/src/rtree/branch/mod.rs: ZiperBranches"]}
{"id": "C41", "title": "Class streamer records survive a write and a read", "statement": "A streamer-info record with its list of elements is read back with the same class name, checksum, version and the same elements (name, title, type, size, type name, base version).", "quantifier": "every list of elements of supported kinds", "why_tests_cant": "unbounded lists of elements with class references.", "anchors": ["oxyroot/src/rdict/mod.rs: StreamerInfo, StreamerElement", "oxyroot/src/rdict/streamer_types.rs"]}
{"id": "C42", "title": "Colours and enumerations survive the conversion to and from integers", "statement": "Converting any 16-bit colour code to a colour and back gives the same code, and converting any 32-bit element-type code to the enumeration and back gives the same code.", "quantifier": "every 16-bit and 32-bit integer", "why_tests_cant": "2^32 values.", "anchors": ["oxyroot/src/rcolors/mod.rs", "oxyroot/src/rmeta/consts.rs"]}
{"id": "C43", "title": "A marshalled object reports the number of bytes it wrote", "statement": "The byte count returned by writing any object equals the number of bytes appended to the buffer.", "quantifier": "every object kind the writer supports, every value", "why_tests_cant": "sizes are data dependent.", "anchors": ["oxyroot/src/rbytes/wbuffer.rs: set_header, write_object_any", "oxyroot/src/rbytes/mod.rs: Marshaler impls"]}
{"id": "C44", "title": "Files above 2 GB keep working", "statement": "A session that makes the file grow past 2 GB still produces a file whose keys and payloads read back.", "quantifier": "every session crossing the 2 GB limit", "why_tests_cant": "no test writes 2 GB.", "anchors": ["oxyroot/src/riofs/key.rs: Key::new, marshal", "oxyroot/src/riofs/dir.rs: marshal, save_keys", "oxyroot/src/riofs/file.rs: set_end"]}
{"id": "C45", "title": "Names that are accepted on write can be read", "statement": "Any name accepted by put can be looked up after reopening.", "quantifier": "every name", "why_tests_cant": "all strings.", "anchors": ["oxyroot/src/riofs/file.rs: put", "oxyroot/src/riofs/utils.rs: decode_name_cycle"]}
{"id": "C46", "title": "Header identification never accepts a file that is not a ROOT file", "statement": "Opening never succeeds on data whose first four bytes are not 'root', nor on data shorter than the fixed header.", "quantifier": "every byte sequence", "why_tests_cant": "inputs are arbitrary bytes.", "anchors": ["oxyroot/src/riofs/file.rs: open, read_header"]}
{"id": "C47", "title": "Derived structures are stored completely", "statement": "Writing a tree from an iterator of structures with the derived WriteToTree stores, for every field of every (also nested) structure that is kept in a branch, one entry per structure, in order; the tree has one entry per structure.", "quantifier": "every nesting of structures, every sequence of values", "why_tests_cant": "The test suite covers flat structures of ten rows; nested ones are commented out. The order in which the functions of nested structures run decides what is lost, for every shape and number of rows.", "anchors": ["oxyroot_derive/src/lib.rs: derive_write_to_tree, write_new_branch_for_write_to_tree", "oxyroot/src/rtree/tree/traits.rs: WriteToTree", "oxyroot/src/rtree/tree/writer.rs: WriterTree::write, add_callback"]}
{"id": "C48", "title": "The bundled class dictionary is consistent", "statement": "The table of class records bundled with the library is built without abort, contains no class twice, every record of it can be written and read back, and looking a class up gives the record with exactly that name (and that version if one is asked for), whatever the order in which the hash map stores its keys.", "quantifier": "every class name and version, every order of the map", "why_tests_cant": "The look-up scans hash map keys by prefix; whether it depends on the iteration order, which differs between runs, is a question about all orders and all names.", "anchors": ["oxyroot/src/rdict/streamers/streamers_db_generated.rs", "oxyroot/src/rdict/streamers/db.rs: DbHandler", "oxyroot/src/rdict/streamers/streamers_db_gen_helpers.rs: build_streamer"]}
{"id": "C49", "title": "A closed file describes every class it uses", "statement": "After close and reopen, the file contains a class record for the class of every stored object, and for every class these records refer to (base classes, members, pointers, items of vectors), transitively, except the built-in ones. The class of every column of vectors has a record, whose only member is a vector of this class with the type of its items.", "quantifier": "every session with the bundled dictionary", "why_tests_cant": "Tests look at one file; the closure depends on the recursive search through the dictionary starting from whatever was stored.", "anchors": ["oxyroot/src/riofs/file.rs: find_deep_streamer, add_streamer_info", "oxyroot/src/rdict/mod.rs: Visitor::visit", "oxyroot/src/rdict/streamers/mod.rs: make_streamer_for_marshaler_type", "oxyroot/src/rtree/tree/writer.rs: close"]}
{"id": "C50", "title": "Writing trees of ordinary columns always succeeds and gives them back", "statement": "A program that creates a file, writes trees with different names to it and closes it returns no error and does not abort, and the file then opens, lists exactly these trees in order, and each has its columns in order with all their values, provided that: columns are numbers, booleans, strings, vectors of numbers, or arrays of these; names and titles are UTF-8 of at most 1000 bytes, tree names without '/' and ';'; each string or vector takes at most 1001 bytes, each array at most 90 MB; numbers and arrays are not so many that they fill 32767 baskets (at least 134 million numbers are fine); the path has at most 478 bytes; five quarters of the bytes of the numbers and arrays and six times the bytes of the strings and vectors, with 14000 per column and 6000 per tree, are at most 1.99 GB.", "quantifier": "every number of trees, columns and entries, every value, every name within the bounds", "why_tests_cant": "The writer can abort or fail in many places (basket arrays, buffer sizes, length fields, dictionary look-ups); that none of them is reached from any ordinary input is a statement about all inputs.", "anchors": ["oxyroot/src/riofs/file.rs: RootFile::create, RootFile::close", "oxyroot/src/rtree/tree/writer.rs: WriterTree::new, new_branch, write", "oxyroot/src/rtree/branch/wbranch.rs: WBranch::write, flush", "oxyroot/src/rtree/basket.rs"]}
{"id": "C51", "title": "Columns of sets and maps come back as the sets and maps that were stored", "statement": "When the entries of a column made by ROOT are sets (a header of the announced size, a number of items, the items) or maps (a header, a number, all the keys, all the values, keys or values that are texts or vectors behind a header of six bytes), iterating over the column as HashSet or HashMap gives for every entry, in order, exactly the items of the set, each once, or exactly the keys of the map, each with its value; when a key is stored twice the last value counts.", "quantifier": "every number of baskets and entries, every size of the containers, every item, key and value of a supported type, every header bytes", "why_tests_cant": "Headers appear at three places that depend on the types of the keys and values, and each of them changes what the following bytes mean; sample files have a handful of type combinations and small containers.", "anchors": ["oxyroot/src/rbytes/mod.rs: Unmarshaler for HashSet, Unmarshaler for HashMap", "oxyroot/src/rbytes/rbuffer.rs: do_skip_header, set_skip_header", "oxyroot/src/rtree/branch/tbranch_element.rs: get_baskets_buffer", "oxyroot/src/rtree/streamer_type.rs: header_bytes_from_type", "oxyroot/src/rtree/branch/mod.rs: get_basket"]}
{"id": "C52", "title": "Columns of arrays of varying size come back entry by entry", "statement": "When the entries of a column are arrays with a varying number of numbers, kept with a table of where each entry begins, iterating over the column as Slice<T> gives every entry, in order, with exactly its own items.", "quantifier": "every number of baskets, entries and items per entry, empty ones included", "why_tests_cant": "The reader decides from a coincidence of two counts whether to believe the table of positions; a test file shows the fault only when the counts happen to agree.", "anchors": ["oxyroot/src/rusty/containers.rs: Slice, SizedSlice", "oxyroot/src/rtree/branch/tbranch.rs: get_baskets_buffer", "oxyroot/src/rtree/branch/mod.rs: get_basket"]}
{"id": "C53", "title": "Columns made by C++ programs are read as the Rust types that correspond to them, and as no others", "statement": "A column of vectors, nested to any depth, of numbers, booleans or strings, however the C++ type is spelled and spaced, is accepted as the corresponding nested Vec and refused with a type mismatch as every other type; a column of sets is accepted as the corresponding HashSet only; a member of a class of a basic type is accepted as that number, as an array of n of them when its title has a constant dimension, as a Slice of them when the dimension is another member.", "quantifier": "every nesting depth, every spacing, every listed spelling of a number, every dimension, every type asked for", "why_tests_cant": "The name is rewritten by a chain of a dozen textual replacements that interfere with each other (int inside uint32_t, long inside unsigned long); a test names a few types at depth one.", "anchors": ["oxyroot/src/rtree/streamer_type.rs: clean_type_name, replace_string, _from_leaftype_to_str", "oxyroot/src/rtree/branch/tbranch_element.rs: _item_type_name", "oxyroot/src/rtree/branch/mod.rs: as_iter, item_type_name", "oxyroot/src/rbytes/mod.rs: Unmarshaler::class_name"]}
{"id": "C54", "title": "A column is shown as the Rust type it can be read as", "statement": "When a column can be read as values of a Rust type (numbers, strings, arrays of numbers, nested vectors, sets, arrays of varying size), its interpretation is the name of that type; in particular every column of a written tree is shown, after reopening, as the type it was written with.", "quantifier": "every column, every type, every nesting depth and dimension", "why_tests_cant": "The name goes through some thirty successive textual replacements whose results are again subject to the later ones; the tests try ten names.", "anchors": ["oxyroot/src/rtree/branch/mod.rs: interpretation", "oxyroot/src/rtree/streamer_type.rs: type_name_cpp_to_rust, clean_type_name"]}
{"id": "C55", "title": "Written columns are described in the file as ROOT describes them", "statement": "After a tree is written and the file closed, the record of the tree describes each column with its name, one leaf of the class of the type, the size and the sign of the type, the number of items of an array, and vectors as TBranchElement of the class vector<...>, so that other programs interpret the bytes as they were meant.", "quantifier": "every tree, every number of columns, every supported type, every dimension", "why_tests_cant": "The description is spread over the constructors of the branch and of the leaf and over the records, and is changed while the entries are written; tests of this crate only read it back with the same assumptions.", "anchors": ["oxyroot/src/rtree/leaf.rs: Leaf::new", "oxyroot/src/rtree/branch/wbranch.rs: WBranch::new, write", "oxyroot/src/rbytes/mod.rs: Marshaler::root_code, Marshaler::class_name", "oxyroot/src/rtree/tree/writer.rs: write"]}
{"id": "C56", "title": "Structures are read back from trees by derived readers", "statement": "Structures whose fields are stored in branches under the documented names, in any tree of a file, are given by the derived ReadFromTree as they are: the same structures, in the same order, and nothing more, however deep they are nested and whatever attributes are used; structures written with the derived WriteToTree are given back by the derived ReadFromTree of the same structure. Whatever the tree, a derived reader that accepts it gives for each entry the values of the branches at that entry, up to the end of the shortest branch; a missing branch is reported as BranchNotFound and a branch of another type as a type mismatch.", "quantifier": "every structure (fields, nesting, attributes), every list of structures, every tree", "why_tests_cant": "The reader is generated code over one iterator per field; tests fix two or three structures and files made elsewhere, and never the combination of writer and reader over all shapes.", "anchors": ["oxyroot_derive/src/lib.rs: derive_ead_from_tree, write_func_for_readtotree, write_next_for_readtotree, derive_write_to_tree", "oxyroot/src/rtree/tree/traits.rs: ReadFromTree::from_branch_tree, from_tree, WriteToTree::to_tree", "oxyroot/src/rtree/tree/branch_name.rs: BranchName"]}
{"id": "C57", "title": "Slicable structures are put together item by item", "statement": "When the branches of the fields of a slicable structure hold arrays of varying size, each entry is given as a vector of structures, as many as the arrays of the entry have items, the k-th structure having the k-th item of every field; entries follow in order. When the arrays of an entry differ in length the items are not silently combined wrongly.", "quantifier": "every flat structure, every number of entries, every number of items per entry", "why_tests_cant": "The generated loop takes its bound from whichever field comes last; tests use two fields of equal length.", "anchors": ["oxyroot_derive/src/lib.rs: write_func_for_readtotree_sliced, write_next_for_readtotree_sliced", "oxyroot/src/rtree/tree/traits.rs: from_branch_tree_sliced", "oxyroot/src/rusty/containers.rs: Slice"]}
{"id": "C58", "title": "Trees and branches announce their sizes", "statement": "After a tree is written and its file opened again, the size that each branch announces, before and after compression, is the size of its records in the file (none is compressed when written), and the sizes that the tree announces are those of the data of all its branches.", "quantifier": "every session that writes a tree, every number, type and length of its columns, every capacity of the buffers", "why_tests_cant": "The sizes are added up in two different places, while entries are marshalled and while baskets are written; tests compare the values read, never these counters.", "anchors": ["oxyroot/src/rtree/tree/base.rs: Tree::tot_bytes, zip_bytes", "oxyroot/src/rtree/tree/writer.rs: WriterTree::write", "oxyroot/src/rtree/branch/wbranch.rs: flush", "oxyroot/src/rtree/wbasket.rs: write_to_file"]}
{"id": "C59", "title": "The user information of a tree is what was attached to it", "statement": "A tree to which texts and maps of texts were attached with ROOT is read with all of them: the user information has as many items as were attached, in their order, each text is the one attached, and each map gives for every key the value stored under it and nothing for other keys.", "quantifier": "every tree with any branches, every number of texts and maps of any sizes, with any keys, at any place of the file", "why_tests_cant": "The only test reads one file with one map; whether several items, repeated keys, shared objects or other classes are read depends on how references between objects are resolved.", "anchors": ["oxyroot/src/rtree/tree/reader.rs: ReaderTree::user_info, unmarshal", "oxyroot/src/rcont/list.rs: ReaderList::at", "oxyroot/src/rcont/tmap.rs: TMap::get, unmarshal", "oxyroot/src/rbase/objstring.rs: TObjString"]}
{"id": "C60", "title": "Baskets written by ROOT are read with all their entries, in order", "statement": "The entries read from a branch of a ROOT file are the values stored in its baskets, in the order of the baskets and of the values in each: for branches of numbers, arrays of fixed size, texts and vectors, whether the baskets are compressed or not, lie beyond 2 GB or not, have a table of positions or not, and whether the last one is in the file or still in the record of the branch.", "quantifier": "every file, every number of baskets anywhere in it, every number of entries and every value, every compression that makes one block, every version of the basket up to 3", "why_tests_cant": "Test files have a few baskets with one compression each; the position tables, the two key layouts, the compressed and plain payloads and the basket kept in the branch combine in more ways than any set of files covers.", "anchors": ["oxyroot/src/rtree/basket.rs: Basket::raw_data, unmarshal", "oxyroot/src/rtree/branch/tbranch.rs: get_baskets_buffer", "oxyroot/src/rtree/branch/tbranch_element.rs: get_baskets_buffer", "oxyroot/src/riofs/key.rs: Key::unmarshal, load, bytes", "oxyroot/src/rcompress.rs: decompress"]}
{"id": "C61", "title": "Trees written by ROOT are read with all their branches and entries", "statement": "A tree that ROOT wrote is found in its file by its name, whether its record is compressed or not, with every field as written; its listing has all its branches, at any depth, each branch with its leaves and fields, and a branch whose name no other has is found by that name; and the entries of a branch are the values stored in its baskets, in order, for numbers, arrays of fixed size, texts and vectors.", "quantifier": "every tree of versions 6 to 20 with branches of versions 10 to 13 and element branches of versions 2 to 10, any number of them and nested to any depth, any number of leaves, every slot table, every value of every field and every file the record lies in below position 2^30", "why_tests_cant": "The record of a tree is recursive and every part of it has fields that only some versions have; test files fix one version, one nesting and one set of leaves each.", "anchors": ["oxyroot/src/rtree/tree/reader.rs: ReaderTree::unmarshal, branch, branches_r", "oxyroot/src/rtree/branch/tbranch.rs: TBranch::unmarshal", "oxyroot/src/rtree/branch/tbranch_element.rs: TBranchElement::unmarshal", "oxyroot/src/rtree/leaf.rs: unmarshal", "oxyroot/src/rtree/basket.rs: Basket::unmarshal", "oxyroot/src/riofs/key.rs: Key::object, load", "oxyroot/src/riofs/file.rs: RootFile::get_tree"]}
{"id": "C62", "title": "The programs ls and dump print every written tree with its columns and values", "statement": "For a file to which trees were written, oxyroot-ls prints every tree in order with its class and, for each column in order, its name, its type and the Rust type it can be read as; oxyroot-dump prints the same listing and then, for every entry of the tree in order, every column in order with its value at that entry, or None when the column has no such entry. No program stops before the end.", "quantifier": "every list of trees of supported column types that fits a file (any names, any number of trees, columns and entries, columns of different lengths, any values of at most 1001 bytes)", "why_tests_cant": "The type of a column passes from the writer through the leaf, the class name, the Rust name and a table of 622 names before its values are read; a test prints a few columns of a few types, and a type that is missing in the table is left out silently.", "anchors": ["oxyroot-dump/src/main.rs: ZipperDumperItem::new, ZiperDumperBranch::dump, main", "oxyroot-ls/src/main.rs: main", "oxyroot/src/rtree/tree/reader.rs: ReaderTree::show", "oxyroot/src/rtree/branch/mod.rs: interpretation, as_iter, as_iter_unchecked"]}
{"id": "C63", "title": "Files written by ROOT open with all their keys, classes and free segments", "statement": "A file as ROOT writes it opens: the header, the name and the title of its directory, its keys in order with their names, titles, classes, cycles and dates, its free segments, and the classes in it with every member are reported as they were written, whether positions are of four or of eight bytes and whether the records are compressed or not. Of the keys with one name the one with the highest cycle is used, and a tree behind it is read with its branches and the values in their baskets, from nothing but the bytes of the file.", "quantifier": "every file of ROOT (any version of the header, any keys, any number of classes with any members that are bases, basic types, arrays, pointers to arrays, objects, texts and containers, with or without rules; any trees)", "why_tests_cant": "Tests open a dozen files; whether one opens depends on each class record in it, down to the remark of each member, and on the length of its path, so that any other file may be refused as a whole.", "anchors": ["oxyroot/src/riofs/file.rs: RootFile::open, read_header, read_free_segments, read_streamer_info, get_tree", "oxyroot/src/riofs/dir.rs: read_dir_info, read_keys, get_object", "oxyroot/src/rdict/streamers: StreamerInfo, StreamerElement, Streamer* (Unmarshaler)", "oxyroot/src/riofs/key.rs: Key (Unmarshaler), load, object"]}
{"id": "C64", "title": "Records that are written are those of ROOT's format", "statement": "What the library writes for a tree is the record that the descriptions of the classes ask for: every object begins with the version of its class and the number of bytes that follow, has the members of its class in their order with the sizes of their types, tables have as many elements as the member that counts them says, an object is preceded by its class name the first time a class occurs and by the position of the class after that, and an object that has been written before is given by its position. The same holds for the list of classes in the file. The bytes are found at the position the key or the header gives.", "quantifier": "every session that writes a tree with any columns (and any other objects before and after), every file that is closed with any registered classes; every tree record with any branches and baskets", "why_tests_cant": "Tests read the file back with the same library, which accepts what it wrote even where another reader would not; the position of every class and object in a record depends on all that precedes it.", "anchors": ["oxyroot/src/rtree/tree/writer.rs: WriterTree (Marshaler)", "oxyroot/src/rtree/branch/tbranch.rs, branch_element.rs: marshal", "oxyroot/src/rtree/leaf.rs: marshal", "oxyroot/src/rbytes/wbuffer.rs: write_object_any, write_class, write_header, set_header", "oxyroot/src/rdict/streamers: StreamerInfo, StreamerElement (Marshaler)", "oxyroot/src/rcont/objarray.rs, list.rs: marshal", "oxyroot/src/riofs/file.rs: write_streamer_info"]}
{"id": "C65", "title": "The file depends on nothing but what is written to it", "statement": "A program that creates a file, writes trees to it and closes it makes the same file, byte for byte, in every process and every time it is run: where the branches, leaves and class records happen to be in memory, which numbers the process has already given to class records, and the order in which the hash map of the bundled classes keeps its entries make no difference. If it fails, it fails in the same way after the same writes.", "quantifier": "every list of trees with any columns, any placement in memory in which different objects have different addresses, any state of the process-wide counter, any order of the hash map", "why_tests_cant": "A test sees the addresses, counter and hash order of the few processes it runs in; a dependence on them would show rarely and not reproducibly.", "anchors": ["oxyroot/src/rbytes/wbuffer.rs: write_object_any, write_class (refs_p)", "oxyroot/src/rdict/mod.rs: StreamerInfo::clone, Streamers, Visitor", "oxyroot/src/rdict/streamers/db.rs: DbStreamer::get, ID", "oxyroot/src/rtree/tree/writer.rs: write, close, marshal", "oxyroot/src/riofs/file.rs: create, put, close, write_streamer_info, find_deep_streamer"]}
{"id": "C66", "title": "A closed file is a chain of records that can be walked from end to end", "statement": "Every record of a file begins with its size, so that a program such as ROOT's recovery can go from one record to the next. Walking so through a file that was closed, from byte 100, meets the record of the top directory, one record for each object and basket that was stored, in the order of the calls, with its class, name, title, own position and the bytes of the object at its end, then the list of keys, the list of classes and the free segments; the last record ends where the header says and where the file ends. Nothing lies between the records, calls that were refused leave no trace, there is no other way to walk, and every key the opened file lists is one of the records. Before close the same holds for the records stored so far.", "quantifier": "every session below 2 GB: any path, any sequence of stored objects, baskets and announced classes, some of which may be refused", "why_tests_cant": "Tests open files through the directory and never look at what lies between records; a size that is wrong for some lengths of names or payloads is only seen by a program that walks.", "anchors": ["oxyroot/src/riofs/key.rs: Key::new, new_from_buffer, new_from_object, new_key_for_basket_internal, write_to_file", "oxyroot/src/riofs/file.rs: create, put, close, set_end, write_streamer_info, write_free_segments", "oxyroot/src/riofs/dir.rs: save, save_keys", "oxyroot/src/rtree/wbasket.rs: write_to_file"]}
{"id": "C67", "title": "A closed file is a file of ROOT, by a description of the format that knows nothing of the writer", "statement": "The bytes of a closed file are those of a file as ROOT writes it, by the same description of ROOT's files from which it is proved how files written by ROOT are opened: magic, version and the fields of the header, the record of the top directory and its name, the list of the keys, the list of classes with every member, the list of free segments, each at the place and with the sizes the other parts give. The keys are those of the accepted calls in order, with their names, classes and cycles, and behind each lies the object that was stored; the classes are those that were announced, each once.", "quantifier": "every session below 2 GB: any path, any sequence of stored objects and announced classes, some of which may be refused", "why_tests_cant": "A test can open its own files with the same library, where writer and reader may share a mistake, or with one version of ROOT for some files; that every file has the format needs an account of the format and all sessions.", "anchors": ["oxyroot/src/riofs/file.rs: create, put, close, write_header, write_streamer_info, write_free_segments", "oxyroot/src/riofs/dir.rs: save, save_keys, write_header, TDirectoryFile (Marshaler)", "oxyroot/src/riofs/blocks.rs: FreeSegments (Marshaler)", "oxyroot/src/riofs/key.rs: Key (Marshaler)", "oxyroot/src/rdict/mod.rs: StreamerInfo, StreamerElement (Marshaler)", "oxyroot/src/rdict/streamers/streamer_types.rs: Streamer* (Marshaler)", "oxyroot/src/rcont: WriterList, WriterObjArray (Marshaler)"]}
{"id": "C68", "title": "The trees that are written are trees of ROOT down to the baskets", "statement": "The branches of a written tree list their baskets, and each of these is, byte for byte, a basket as ROOT stores it: key, version, sizes, number of entries and end of the entries are right, it is labelled with the name of the branch, the name of the tree and its number, and it lies at the place and has the size the branch announces. Together the baskets of a column hold the entries of the column, each once and in order; the branch knows the number of baskets, the first entry of each and the bytes they take. Baskets of texts and vectors have the table of the positions of their entries; in all others every entry has the length the basket announces, by which ROOT finds an entry. With the other parts of the format, a program that creates a file, writes trees and closes it leaves a file of ROOT: header, directory, keys, classes, tree records and baskets.", "quantifier": "every session below 2 GB that writes a tree: any columns of supported types, any number of entries and baskets, anything else done with the file before and after; for whole files every list of trees that C50 allows", "why_tests_cant": "Reading a file back with the same library does not use the lengths, titles, cycles and first entries that ROOT uses, and a test with ROOT tries a few columns and numbers of baskets.", "anchors": ["oxyroot/src/rtree/branch/wbranch.rs: write, flush, create_new_basket", "oxyroot/src/rtree/wbasket.rs: update, write_to_file, WBasket (Marshaler)", "oxyroot/src/rtree/basket.rs: new_from_branch", "oxyroot/src/riofs/key.rs: new_key_for_basket_internal", "oxyroot/src/rtree/tree/writer.rs: write, close"]}
{"id": "C69", "title": "A column can have any number of values", "statement": "A column with any number of values for which there is room in the file is written and read back with all its values: in particular a tree with one column of numbers, below 2 GB.", "quantifier": "every type of numbers, every list of values, every name", "why_tests_cant": "What limits a column is the number of its baskets, a 16 bit integer, which is reached after 32767 baskets of up to 32767 bytes, about one gigabyte in a single column; tests with such columns take too long, and do not find the exact number.", "anchors": ["oxyroot/src/rtree/branch/wbranch.rs: write, flush, create_new_basket", "oxyroot/src/rtree/basket.rs: new_from_branch", "oxyroot/src/rtree/tree/writer.rs: write"]}
{"id": "C70", "title": "What was closed stays readable, whatever is done with the file afterwards", "statement": "Once a file has been closed, the handle can be used further: objects and baskets can be stored, and the file can be closed again. At every moment of it, also when the process stops in the middle of a write, a reader gets from the file everything it could get before: the same names, class records, objects, trees and columns. Closing again succeeds, and then the file has the objects of before and of since. A tree that was written can be written again.", "quantifier": "every session below 2 GB, every list of calls after the close, every moment at which the process may stop, every reader", "why_tests_cant": "A test closes a file once and reads it; what a partly written tail does to each of the readers is a matter of all the positions a reader looks at.", "anchors": ["oxyroot/src/riofs/file.rs: put, close, write_streamer_info, open", "oxyroot/src/riofs/dir.rs: save, save_keys", "oxyroot/src/rtree/tree/writer.rs: write, close"]}
{"id": "C71", "title": "Objects and trees can have names of any length", "statement": "An object or a tree can be stored under a name of any length. If the call that stores it and the closing of the file succeed, then the file opens again, the name is listed in full with its title, class and cycle, and asking for the name gives back the bytes that were stored.", "quantifier": "every session below 2 GB, every name, title and class of any length, every other object of the file, every reader", "why_tests_cant": "A test uses a few short names; the length of what stands in front of an object is the sum of four lengths and is stored in 16 bits with a sign, so that the boundary is nowhere visible in the interface.", "anchors": ["oxyroot/src/riofs/key.rs: Key::new, key_len_for, marshal, unmarshal, load, is_compressed", "oxyroot/src/riofs/file.rs: put, close, open", "oxyroot/src/rtree/tree/writer.rs: write"]}
{"id": "C72", "title": "A branch stores what its iterator gives up to its end, and nothing after it", "statement": "Whatever iterators are given to the branches of a tree, each branch stores the values that its iterator gives before it answers None for the first time, in order, and nothing that it gives afterwards; the tree has as many entries as the longest of these.", "quantifier": "every number of branches, every type, every iterator (also ones that answer None and go on later), every session below 2 GB, every reader", "why_tests_cant": "Tests use iterators over vectors, which answer None for ever. What happens to one that goes on depends on all other iterators of the tree.", "anchors": ["oxyroot/src/rtree/tree/writer.rs: WriterTree::write, new_branch", "oxyroot/src/rtree/branch/wbranch.rs: WBranch::write", "oxyroot/src/rtree/tree/reader.rs: ReaderTree::branch"]}
{"id": "C73", "title": "Members of classes are read by their own descriptions", "statement": "In a file of ROOT, the branch of a member of a class (`ev.track.hits`) that is a string or a vector, nested to any depth, is read as the type that the record of the class in the file gives to the member of that name, and is refused as every other type, whatever other members and classes there are; and the values that come back are the ones ROOT stored. When the file has records of several versions of the class, the one of the version of the branch decides. A `TString` is read as a String.", "quantifier": "every list of class records, every number of members, every path of names before the member, every nesting and spelling of the type, every number of baskets and entries, every reader", "why_tests_cant": "Tests read a few files with one version of each class and a fixed order of members. Which description is taken depends on all records of the file and all members of the class.", "anchors": ["oxyroot/src/rtree/branch/tbranch_element.rs: TBranchElement::streamer, _item_type_name, clean_name, get_baskets_buffer", "oxyroot/src/riofs/file.rs: RootFileStreamerInfoContext::get", "oxyroot/src/rdict/mod.rs: Streamers::get, StreamerInfo::get", "oxyroot/src/rtree/streamer_type.rs: header_bytes_from_type", "oxyroot/src/rtree/branch/mod.rs: Branch::as_iter"]}
{"id": "C74", "title": "A writer that stops between two writes leaves everything or nothing", "statement": "If the program stops at any point of creating, filling and closing a file, with some of the writes to disk done and the later ones not, then what is on disk either is refused by `RootFile::open`, or lists all objects that were put, in their order, each with its name, class, title and bytes: never a part of them. The same holds when the interrupted write itself is done in part, unless it is the one of the directory record or of the last header. From the write of the directory record until that of the last header the file opens, and the trees in it are read with all their columns and values, though there are no class records in it yet.", "quantifier": "every sequence of accepted and refused puts, every number of writes done, every prefix of the interrupted write, every file name and content below 2 GB; for the last sentence every list of columns, and no object whose class is called TBasket", "why_tests_cant": "Tests close their files. The states in between depend on the number and order of all writes and on what older bytes lie under the unwritten ones.", "anchors": ["oxyroot/src/riofs/file.rs: RootFile::create, put, close, write_header, write_streamer_info, write_free_segments, open, read_header", "oxyroot/src/riofs/dir.rs: TDirectoryFile::close, save, save_keys, write_header, read_keys", "oxyroot/src/rtree/tree/writer.rs: WriterTree::write"]}
{"id": "C75", "title": "Columns of maps are read as maps, and as nothing else", "statement": "A column that ROOT filled with maps is given by `as_iter` as HashMaps with the keys and values that were stored, and is refused with a type mismatch as numbers, strings, vectors, arrays, sets and slices, whatever the keys and values of the maps are and however their types are spelled. A column of anything else is refused as HashMaps, and so is a column of maps as HashMaps of other keys or values.", "quantifier": "every name of the key and value types, every spacing, every number of baskets and entries, every size of the maps, every other item type", "why_tests_cant": "Tests read the maps of one sample file as the right type. That a wrong type is refused must hold for all types, and depends on text comparison of names that are rewritten several times.", "anchors": ["oxyroot/src/rtree/branch/mod.rs: Branch::as_iter", "oxyroot/src/rbytes/mod.rs: Unmarshaler::class_name, Unmarshaler for HashMap, Unmarshaler for HashSet", "oxyroot/src/rusty/containers.rs: Unmarshaler for Slice", "oxyroot/src/rtree/streamer_type.rs: clean_type_name, header_bytes_from_type", "oxyroot/src/rtree/branch/tbranch_element.rs: _item_type_name"]}
{"id": "C76", "title": "Texts in other encodings are reported and do not disturb what follows", "statement": "A text stored in a file is given exactly as it was stored, or reading it fails: a text whose bytes are not UTF-8 is not turned into another text. Whatever the bytes of a text are, everything stored after it (the rest of a vector, the next entries of the column) is read as it was stored.", "quantifier": "every sequence of bytes of every text, every length below 4 GB, every number of texts before and after it, every header", "why_tests_cant": "Sample files hold ASCII. There are unboundedly many invalid byte sequences, of both forms of length, at every place of a column.", "anchors": ["oxyroot/src/rbytes/rbuffer.rs: read_string, do_skip_header", "oxyroot/src/rbytes/mod.rs: Unmarshaler for String, Unmarshaler for Vec", "oxyroot/src/rtree/branch/mod.rs: get_basket"]}
{"id": "C77", "title": "Vectors of any size come back", "statement": "A column of vectors is read as the vectors that were stored, however many items they have: an entry whose byte count fits the format (below 2^30) is read as exactly its items, for every type of item.", "quantifier": "every type of item, every list of items, every number of entries and baskets, every size the byte count of the format can express", "why_tests_cant": "The size at which the reader fails (16 MB in one entry) is never reached by a sample file, and which sizes fail does not depend on the items: it has to be shown for all of them.", "anchors": ["oxyroot/src/rbytes/rbuffer.rs: do_skip_header", "oxyroot/src/rbytes/mod.rs: Unmarshaler for Vec", "oxyroot/src/rtree/branch/mod.rs: get_basket"]}
