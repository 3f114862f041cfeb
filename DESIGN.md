# Formal model of oxyroot's read/write path: design

The subject is the Rust library `oxyroot` (`/repo/oxyroot/src`), which reads and writes CERN
ROOT files.  The model and the proofs are in Lean 4 under `lean/Verif`.  Nothing of the Rust
code is built or executed; the model was transcribed by reading.

## How the model is built

* A byte is `UInt8`, a buffer or a file image is `List UInt8`.
* Rust integers are `Nat`/`Int`.  Every store into an `N`-byte field goes through `beBytes N`,
  which wraps modulo `256^N` exactly as the `as iN`/`as uN` casts do, and every load through
  `beNat`/`toSigned`.  Range hypotheses therefore only appear in theorems, never in definitions.
* `f32`/`f64` are their bit patterns (`to_be_bytes`/`from_be_bytes` are bit casts).
* A Rust `String` is its list of bytes; Rust's UTF-8 invariant is the decidable predicate `utf8`.
* A Rust function returning `Result` and possibly panicking is a function into
  `Except Fault _` where `Fault.err e` is a returned error and `Fault.panic` an abort
  (failed slice, `assert!`, `unwrap`, `todo!`, `unimplemented!`, debug overflow).
* `&mut self` becomes state passing.  `RBuffer` readers are `RBuffer → Except Fault (α × RBuffer)`,
  `WBuffer` writers likewise; operations on an open file are `FileW → Except Fault α × FileW`, so that
  the effects of a failing operation are kept.
* The disk is the list of positioned writes issued so far and its image is a `List UInt8`; a crash
  leaves a prefix of the writes, the last one possibly torn.
* Memory addresses decide which objects are written as references.  They are inputs of the model
  (`Places`, `Env.addr`, the counter `ids`), with the hypothesis that objects alive together differ.

Files `Verif/Model/*` contain only definitions, each with the file and lines it models;
`Verif/Lemmas/*` helper lemmas; `Verif/Spec/*` specifications (what is claimed, in terms of lists of
values, names and bytes); `Verif/Props/*` the property theorems with their non-vacuity examples.

| model file | Rust source |
|---|---|
| `Bytes`, `Values` | `rbytes/mod.rs` (marshalers of numbers, strings, vectors, arrays), `rbytes/consts.rs` |
| `RBuffer`, `WBuffer` | `rbytes/rbuffer.rs`, `rbytes/wbuffer.rs` |
| `Objects` | `rbase/*`, `rcolors`, `rmeta/consts.rs`, `tio_features.rs` |
| `Refs` | `write_object_any`, `write_class`, `read_object_any_into`, `rcont/list.rs`, `rcont/objarray.rs` |
| `Streamers`, `Dictionary` | `rdict/mod.rs`, `rdict/streamers/*` (the whole generated table of 85 classes) |
| `Records` | `riofs/key.rs`, `riofs/dir.rs`, `riofs/blocks.rs`, header of `riofs/file.rs` |
| `Session`, `Disk` | `riofs/file.rs` (create, put, add_streamer_info, close), `riofs/dir.rs` (put, save), `wbasket.rs` |
| `Open` | `riofs/file.rs` (open, get_object), `rcompress.rs` |
| `TreeRecords` | `rtree/leaf.rs`, `rtree/branch/*`, records of `rtree/tree/{writer,reader}.rs`, `rtypes/factory.rs` |
| `TreeWrite` | `rtree/tree/writer.rs`, `rtree/branch/wbranch.rs`, `rtree/wbasket.rs` |
| `BranchLookup`, `BranchRead`, `Interpret`, `Containers` (`HashSet`, `HashMap`, `Slice`, `SizedSlice`) | `rtree/tree/reader.rs`, `rtree/branch/*`, `rtree/basket.rs`, `rtree/streamer_type.rs`, `rbytes/mod.rs`, `rusty/containers.rs` |
| `Dump` | `ReaderTree::show`, `oxyroot-ls/src/main.rs`, `oxyroot-dump/src/main.rs` (the whole table of types) |
| `Derive`, `DeriveRead` | `oxyroot_derive/src/lib.rs`, `rtree/tree/{traits,branch_name}.rs` |

### Not modelled

* The decompressors (`flate2`, `xz2`, `lz4`): arbitrary functions of type `Decoders`.
* `chrono`: the calendar computation is modelled; the clock is not asked, the date is a constant in the code.
* `BufWriter`/`File` beyond "writes at positions, flushed when dropped"; I/O errors of the operating system.
* The tool `oxyroot-genstreamers`; the layout of the lines that `oxyroot-ls` and `oxyroot-dump` print.
* Threads: the library has no concurrency in the modelled part.
* `trace!` output, `Debug`/`Display` implementations.
* Writing of objects through `RootFile::put` is `pub(crate)`; the model has it for every object kind because
  trees use it.

## Trusted base

* Lean's kernel.
* The axioms `propext`, `Classical.choice` and `Quot.sound`: every theorem named in `MANIFEST.json` depends on
  a subset of them (see the table at the end).  No axiom is added, and there is no `sorry`, `admit`,
  `native_decide` or `bv_decide`.  Concrete facts are checked with `decide`/`decide +kernel`, that is, by the
  kernel itself.
* The transcription of the Rust source into the definitions of `Verif/Model`.  `Model/Dictionary.lean` was
  generated from `streamers_db_generated.rs` by a script; the rest by hand.

## Properties

"False" means that the negation is proved, with a witness; the `_partial` theorem says what holds.

| id | what is modelled | how it is proved | status |
|----|------------------|------------------|--------|
| C01 | all `write_*`/`read_*` primitives | round trip by arithmetic on base-256 digits | proved |
| C02 | `write_string`, `read_string`, C strings | round trip, case split on the length switch | proved |
| C03 | a universe of nested types with `Vec`, arrays, strings | induction on types and values | proved |
| C04 | `write_header`/`set_header`/`read_header` | in-place patch lemma, for an arbitrary body writer | proved |
| C05 | TObject, TNamed, TAtt*, TioFeatures | composition of round trips | proved |
| C06 | version checks of every record | unfolding, all following bytes universally quantified | proved |
| C07, C08 | `key_len_for`, `Key::marshal/unmarshal` | length computation, round trip | proved |
| C09 | `datetime_to_u32` and the reader's conversion | dates are written packed, read as unix seconds | false; partial |
| C10 | `FreeSegments` | round trip and length | proved |
| C11 | `write_header`, `read_header` of the file | round trip | proved |
| C12 | `TDirectoryFile` record | round trip and bound | proved |
| C13, C14 | a session state machine over the writing operations | invariant `Inv` by induction over operations | proved |
| C15, C16 | session, close, open, look-up | refinement to the list of accepted puts | proved |
| C17 | `put` | direct, for all states | proved |
| C18 | crash = prefix of the writes | the directory record still says "no keys" | proved |
| C19 | `BufWriter` keeps the last write | no session has its header on disk after `close` | false; partial after drop |
| C20, C25 | the `write` loop over branches, callbacks | induction over rounds, log of calls | proved |
| C21, C22 | from `new_branch` to `as_iter` on the reopened file; the iterators may pause (`MadeOf`), here and in all theorems about `TreeWritten` | column invariant along the session, then round trips of all records | proved |
| C23 | `WBasket::update`, room in the fixed arrays | potential: room left per basket; long first entry aborts | false; partial |
| C24 | basket tables of a branch | invariant over writes and flushes | proved |
| C26 | nested branches | induction on trees | proved |
| C27 | `BranchName`, derived reader and writer | induction on chains of attributes | false; partial |
| C28, C30 | `write_object_any`, `read_object_any_into`, TList, TObjArray | simulation between the reference tables of writer and reader | proved |
| C29 | references to objects | the reader drops the second occurrence | false |
| C31, C32 | TBranch, TLeaf*, TTree records | round trips | proved |
| C33 | `compress`, `decompress` with arbitrary decoders; the arithmetic of `Key::load` in `i32` and `u64`, which aborts when it overflows | direct, for keys whose fields are in range and not negative | proved |
| C34 | several compressed blocks | the whole payload is asked from the first block | false (several blocks fail; ZSTD and the old algorithm abort); partial |
| C35 | `add_streamer_info` | induction on registrations | proved |
| C36 | every reader on arbitrary bytes | invariant of the cursor; unterminated C string leaves it | false; partial |
| C37 | errors on malformed input | concrete inputs abort | false; partial |
| C38 | item type names, `as_iter` type check | per type; names with `[n]` change the type | false; partial |
| C39 | `do_skip_header` | values that start with byte 64 are misread | false; partial |
| C40 | `ZiperBranches` | simulation against concatenated chunks; empty baskets abort | false; partial |
| C41 | streamer records | round trips | proved |
| C42 | colours and enums | direct | proved |
| C43 | returned sizes | null object reports 0 for 4 bytes | false; partial |
| C44 | files above 2 GB | every session ending in `[2^31, 2^32)` gives an unreadable file | false; partial |
| C45 | names with `;` | accepted but never found | false; partial |
| C46 | `read_header` | direct | proved |
| C47 | derived `WriteToTree`, nested structures | induction on shapes; nested fields come late; the tree is the one made from iterators that pause (`toTree_feeds`), so that what is read back follows from C72 (`C47_reopened_partial`) | false; partial |
| C48 | the whole bundled dictionary | kernel evaluation of the table (a finite object, all of it) and lemmas on prefixes for all names | proved |
| C49 | dependency search of `add_streamer_info`, records of vectors | closure invariant along the session; the records under the name of a vector are all made by `make_streamer_for_marshaler_type` | proved |
| C50 | create, trees, close, open | every step shown to succeed (room, sizes, dictionary), then C15/C21/C22 | proved |
| C51 | `HashSet`, `HashMap` readers over the chunks of a branch | readings indexed by the declared header size; folds of insertions | proved |
| C52 | `Slice`, `SizedSlice`, the choice between regular and irregular chunks | induction on the items; a basket with as many numbers as the branch has entries is read wrongly | false; partial |
| C53 | `clean_type_name`, `replace_string`, `_item_type_name`, `as_iter`, names of the readers | replacements split at brackets; induction on the nesting; ROOT's spellings of 8-bit and `long long` numbers are refused, members that are `Long64_t` or `bool` abort | false; partial |
| C54 | `type_name_cpp_to_rust`, `interpretation` | the forms a name goes through (plain, with dimension, array) and how every round changes them, under any number of `vector<`; `TString`, arrays of arrays and of strings are not shown as Rust types | false; partial |
| C55 | `Leaf::new`, `WBranch::new`, the records of branches and leaves | invariant of the leaf while entries are written, then the round trip of the record; strings have 24 as the size of an item, booleans the letter `B` | false; partial |
| C56 | the code generated by `derive(ReadFromTree)`, `ReadFromTree for T`, `from_tree` | induction over the structure: what is stored column by column under the documented names is put together again, and conversely what any tree gives is put together from its branches; end to end with C50 and C47 (`C56_columns`, `C56_roundtrip_partial`), also for structures in structures when the names agree (`C56_session_partial`); other nested structures are written under other names than they are read (`C56_nested_false`) | partial |
| C57 | the code generated for `slicable` structures | the slices of an entry are transposed, the bound being the length of the last one; two fields of different lengths (`C57_uneven`) | proved |
| C58 | the sizes added up by `WriterTree::write`, `WBranch::flush`, `WBasket::write_to_file` | exact sums carried through the invariants of C15/C21/C23; the size of the tree after compression is always 0, its size before compression leaves out the records around the entries | false; partial |
| C59 | the tail of a `TTree` record, `ReaderList::at`, `TMap` and its `get`, `TObjString`; ROOT's writers of them as specification | the tree writer is parametric in its tail; each class is a writer/reader pair composed as in C12; maps by induction on the pairs; shared objects abort and other classes make the tree unreadable | false; partial |
| C60 | `Basket::unmarshal`, `raw_data`, `Key::load` and `get_baskets_buffer` of both kinds of branches (as in C16, C29, C34); ROOT's baskets as a specification of bytes, in the file or in the record of a branch | the key, the numbers, the payload and the table are read piece by piece; positions by induction on the entries; branches by induction on the baskets | false with a basket in the record; partial |
| C61 | `ReaderTree::unmarshal`, `TBranch::unmarshal`, `TBranchElement::unmarshal`, the leaves, `get_tree`, `branches_r`, `branch` (as in C12, C29, C50); ROOT's tree record as a writer of its own, with every version gate, in `Spec/RootTrees` | one writer/reader pair per class, branches by mutual induction on the branches inside them; the record is found with C34, the entries with C60 | false with aliases, index, friends or other leaf classes; partial |
| C62 | `show`, `oxyroot-ls`, `oxyroot-dump` with its table of 622 type names and its search for arrays; on top of the writer of C50 | the type of a column is followed from C54 through the table (evaluated) or the array pattern (for every length); the values are those of C50 | false for vectors of 64-bit integers (left out) and for files with other objects (abort); partial |
| C63 | `open` with all it reads (as in C15), `get_tree`; ROOT's file, its key, directory, free segments and class records, as a specification of bytes and a writer of its own in `Spec/RootFiles` | one lemma per part of the file; classes by induction on their members; the tree and its entries with C61 | false for a long name or title, for members with a `[` in their remark and for pointers to objects that are not a `TObject`; partial |
| C64 | the writers of C32, C41 and C28, the whole session of C21/C22; the format, as a specification of its own in `Spec/Format`: a record is made from the rows of the bundled dictionary (its members, types and counters) and the values by name, with byte counts, versions and the positions of classes and objects | each writer appends the part of the format for it (`Streams`), one lemma per member, objects and arrays by induction; conversely what is short as written is short as the format has it | holds for trees in sessions (`C64_tree_in_file`), partial for the list of classes: bases `TObject` and `TNamed` have type 0 where the format has 66 and 67; for bits of features and for clusters, which the tree writer never sets, the records differ |
| C65 | all that writing a file executes: `writeFile` of C50 (create, trees, close), with the addresses of branches, leaves and class records and the process-wide counter as inputs (the date is a constant in the code, identifiers are zero) | a relation between the addresses of two processes that is one-to-one: every writer does the same on buffers whose tables of objects correspond (`Agree`, by composition, no bounds on sizes); every operation on the file commutes with adding a constant to the numbers of class records (`Same`), or does not look at them (`Blind`) | holds, also when the program fails; in `C65_bundled` with nothing assumed but that the trees can be stored and addresses are above the counter |
| C66 | the sessions of C13 to C16; keys as bytes in `Spec/RootBaskets`, the walk as a relation in `Spec/Walk` | the invariant of a session with a list of keys whose extents follow each other without gaps (`Tiles`), extended by every accepted call; what `close` adds; stored bytes as in C14; the walk is determined by the sizes | holds; a file that is still open can be walked if the last thing stored is not empty (the record of the directory is announced with 12 bytes more than are written) |
| C67 | the sessions of C13 to C16; ROOT's file as bytes and its class records as a writer of its own in `Spec/RootFiles` (the description C63 reads from), `PutRecord` in `Spec/RootClosed` | each writer of the library refines the one of the specification (`Wr.Sub`: whatever it writes successfully the other writes too), class record by class record; header, directory, keys, free segments and the places they name from the layout of `close` (C13 to C16) | holds; stored objects are not baskets (these have longer keys and are in no directory) |
| C68 | the sessions of C21 and C22, `writeFile` of C50; ROOT's baskets as bytes in `Spec/RootBaskets` (the description C60 reads from), what ROOT demands of the baskets of a column in `Spec/WrittenBaskets` | the invariant of a branch being written, to which the announced length of the entries was added, says what every flush stores; the bytes of the key and of the numbers behind it are those of the specification; `C68_file` joins it with C50, C64 and C67 | holds |
| C69 | the writer of a branch as in C21 to C24, `writeFile` of C50 | the invariant of a branch says how entries of equal length are cut into baskets (`EvenlyCut`), the number of the basket being filled is at most 32767, and filling the 32767th overflows a 16 bit integer; for whole programs the rounds of a one-column tree are followed up to that entry; below it everything succeeds by C50, whose room is counted in sixteenths of a byte | false: aborts at `32767 * (32767 / w)` numbers of `w` bytes (134180865 of `f64`, 1.07 GB); below that it holds, `C69_numbers_partial`; a release build, which wraps instead, is not modelled |
| C70 | the file writer of C13 to C19 and the reader of C15 and C30 | the records of calls after a close lie behind the end of the closed file (`After`), so what is on disk is the closed file and some bytes more, and each function of the reader gives the same result when bytes are appended (`stillReads_append`); `write_streamer_info` refuses a file that has class records, so a second close stops there, after it has written the list of keys and the directory record (`C70_aborted` opens this file) | false: the second close never succeeds (`C70_again`, `C70_false`), a tree is never written twice (`C70_tree_once`); what the first close wrote stays readable (`C70_kept`), and after the failed second close the objects of before and since are read (`C70_aborted`), but the new ones lie in space that is declared free and their classes have no record |
| C71 | the writer of keys and the list of keys as in C13 to C15, `open`, `Key::load` with its 32 and 64 bit arithmetic | the record of a key with a length that does not fit is the record of a key with the wrapped length (`Key.enc_wrapped`), so the list of keys is read whatever the names are; the wrapped length is negative from 32768 to 65535 bytes, and `n_bytes - key_len`, `seek + key_len` in `u64` overflow | false: such an object is stored and listed and aborts the reader (`C71_lost`, `C71_tree_lost`, `C71_false`); with at most 32767 bytes in front of an object it is read (`C71_kept_partial`), and all names are always listed (`C71_listed_partial`); from 65536 on and for the names of columns (which stand in front of each basket together with the name of the tree) nothing is said |
| C72 | as C21, with any lists of answers of the iterators (`Feed`) in place of columns | the invariant of a column holds of the values given so far (`FeedAt`); a branch asked in vain keeps its state (`write_pause`); the rounds end when all iterators have once had nothing (`writeRounds_feeds`) | false: values that come after `None` are stored when another iterator is longer, and then stand at the wrong entry (`C72_false`); exactly what is stored is `C72_stored`; for iterators that end for ever it is what comes before (`C72_ended_partial`) |
| C73 | `TBranchElement::streamer`, `clean_name`, `_item_type_name`, `header_bytes_from_type`, on any class records; the baskets of C60 and the trees of C61 | the member is the only one of its name, so both look-ups end at it (`ClassMember.streamer`); the name is cut at its last dot and first bracket (`MemberName.clean`); then C53 gives the type and C60 the values | false: with records of two versions of a class the last one in the list decides, whatever version the branch is of (`C73_false`); with one record of each class `C73_member_partial` and, from the file, `C73_file_partial`; `C73_tstring` |
| C74 | the ordered writes of a session (`trace`) and the disk after `n` of them and the first `k` bytes of the next (`crashImage`); `Redirects` names the write of the directory record and the last header by their places | C44 up to the directory record; after it the header is still the one of `create`, whose places for class records and free bytes are zero, and the key list, the directory record and the bodies lie where they are looked for (`window_*`, `ClosedAs.open_window`); a shorter image is refused at the key list (`ClosedAs.window_short`); the zeroed header is refused by its magic | `C74_all_or_nothing`, `C74_everything`, `C74_trees`; what a reader makes of a directory record or a last header written in part is not claimed |
| C75 | `as_iter` with no class name (`HashMap`), the names of the other types; item type names of `map<...>` with any text inside | the cleaned name keeps `map<` and `>` (`clean_container`), which no other type's name has; values by C51 with the twelve bytes of header | false: maps have no class name, so a column of numbers is read as empty maps, and maps of `int` as maps of `i16` with other keys and values (`C75_false`); `C75_refused_partial`, `C75_read_partial` |
| C76 | `read_string` on any bytes, `from_utf8` as in RFC 3629; strings and vectors of strings in the columns of C51 | both forms of length read, the bytes always taken, then shown or not (`Reads.anyString`) | false: a text that is not UTF-8 is given as the empty text (`C76_false`); everything else comes back: `C76_text_partial`, `C76_column_partial`, `C76_vectors_partial` |
| C77 | `do_skip_header` and the reader of vectors on the entries as stored (`vectorEntry`, byte count as ROOT defines it) | the header is skipped only if its first byte is 64; otherwise its four bytes are the number of items, more than there are bytes (`times_room`, `Ty.eats`) | false: an entry of 2^24 + 4 bytes or more is never read, whatever the items (`C77_false`; items that are arrays of length 0 left out); below that everything comes back: `C77_short_partial` |

## Findings about the code

Proved in Lean (negations and limits):

* `read_cstring` without terminator leaves the cursor one past the end (C36).
* Short or malformed input aborts instead of returning an error (C37); magic, string lengths, negative lengths.
* A value stored without header and beginning with byte 64 is read as if it had one (C39).
* A jagged column is read wrongly when a basket has as many numbers as the branch has entries: the first entry gets
  them all (C52).
* Vectors of 8-bit numbers and of `long long`, spelled as ROOT spells them (`vector<char>`, `vector<unsigned char>`,
  `vector<Long64_t>`), are refused for every Rust type; members that are `Long64_t`, `ULong64_t`, `bool`,
  `Double32_t` or `Float16_t` abort when they are asked for (C53).
* A column of `TString` is shown as the type `TString`, which is not a Rust type (C54).
* Columns of strings are written with 24 as the size of an item, booleans with the letter `B` in the title (C55).
* Structures with structures in them are written without any error and cannot be read back as the same structures: the writer leaves out the name of the outer field (C56).
* In a slicable structure the length of the last field decides: a shorter array before it aborts, a longer one loses items (C57).
* The size of a tree after compression is announced as 0 whatever it holds (`let zip = 0` in `write`), and its size
  before compression is less than that of its branches (C58).
* An object that is attached to a tree twice (the same string as key and value of a map, for instance) makes the
  reader abort, and an attached object of a class that is not registered, such as `TNamed` or `TParameter`,
  makes the whole tree unreadable (C59).
* The basket kept in the record of a branch, which in ROOT is the last one, is given before the baskets in the file
  (C60).
* A tree with aliases, an index, friends or a reference table makes the reader abort, and one leaf of a class that is
  not registered (`TLeafG`, `TLeafF16`, `TLeafD32`, `TLeafObject`) makes the whole tree unreadable (C61).
* `oxyroot-dump` silently leaves out columns of `Vec<i64>` and `Vec<u64>`; both programs abort on a file whose first
  object is not a tree; a type with an array inside, as `Vec<[i32;3]>`, is printed as the array (C62).
* A file of ROOT in which some class has a member with a unit in its remark (`energy [MeV]`) cannot be opened: the
  reader aborts, since a `[` is accepted in first place only; nor can one in which a class has a pointer to an
  object that is not a `TObject` (`TStreamerObjectAnyPointer` is not registered), or whose name and title take more
  than about 1000 bytes (C63).
* The bases `TNamed` and `TObject` of a class are written with type 0 (any base) instead of 67 and 66; features of trees
  and branches with any bit set get four bytes more than the version that is written asks for (C64).
* Payloads compressed with ZSTD or with ROOT's old algorithm abort the reader; payloads of more than one block, which
  are those over 16 MB, fail with zlib and with LZMA (C34).
* The null object reports 0 bytes for 4 (C43).
* A branch named `a[3]` refuses the type it was written with (C38).
* The 32767th basket of a column cannot be filled: a column of 134180865 numbers of 8 bytes aborts (C69).
* A file cannot be closed twice and a tree cannot be written twice; objects stored after the close are lost to a reader
  unless the close that fails is called, and then lie in space declared free (C70).
* An iterator that answers `None` and goes on is still asked while other branches have values, and what it gives is stored
  right after its earlier values, at the wrong entries (C72).
* When a file has records of two versions of a class, members are read by the one that was read last, whatever version
  their branch is of: vectors of integers are given as vectors of floating point numbers (C73).
* `close` puts the directory record in place before the class records and the header: a program that stops in between
  leaves a file that opens with all its objects but without any class record (C74).
* `as_iter` accepts every column as `HashMap`s of every type, since maps have no class name: numbers are given as empty
  maps, maps of `int` as other maps of `i16` (C75).
* A text that is not UTF-8 is given as the empty text, without an error (C76).
* Vectors of 16 MB or more cannot be read: the first byte of their header is not 64, and the byte count is taken for
  the number of items (C77).
* An object with a name of about 32700 to 65500 bytes is stored without an error, is listed, and aborts the program that
  asks for it (C71).
* A first entry of 1002 bytes or more followed by 1000 small ones aborts the writer (C23).
* An empty basket aborts `ZiperBranches`; a basket embedded in a sub-branch is cut into one-byte cells (C40).
* A file that ends in `[2^31, 2^32)` cannot be opened (C44).
* `close` never flushes the `BufWriter` (C19).
* More than 32767 objects of one name overflow the cycle (C17_overflow); a path over 478 bytes gives a file that
  cannot be opened (C15_long_path).
* Dates (C09), references to objects (C29), several blocks (C34), names with `;` (C45), derived names (C27) and
  nested derived structures (C47) as in the table.
* Negative bounds of free segments are lost (C10_negative_bound_lost); bases `TNamed`/`TObject` lose their element
  type, `StreamerSTLstring` cannot be written (C41); `TObjString` cannot be written (C05); the version of a `TMap`
  is not checked (C06).

Seen while reading, not stated as theorems:

* The chunk size of the zip iterator is the leaf's `etype`, not `len * etype`; sub-branches without baskets are
  ignored.
* The last flush of a branch may write an empty basket.
* In a big file `save_keys` declares 8 bytes more than it writes; `Key::new` crossing 2 000 000 000 uses the small
  key length but the 8-byte layout.
* The search for the classes an object depends on does not end for classes that refer to themselves (leaves);
  not reachable through the public interface.
* A payload length of 2^31 or more wraps.
* `[T; 0]` divides by zero, `[T; n]` with `n ≥ 2^31` wraps; `skip_version` masks oddly; `ensure_minimum` is off by
  one; after an error in `tree.write` the branches are lost.
* A class record registered under the name of a vector class can
  change how vectors are read; a leaf of length 0 is read with length 1.
* The titles in the dictionary are always empty; `TStreamerLoop` and `TStreamerArtificial` are not registered.
* A `Slice` of items without bytes never ends.
* A member with the code of `TString` (65) is not recognised by its code (65 - 40 is taken first), only by the
  streamer type of its branch; ROOT's counters (code 6) are signed but read as unsigned.
* The title of a column of arrays is written as `x/[3]/I`, where ROOT has `x[3]/I`.
* A reference to an object that was written before has a byte count, so that it takes 8 bytes where ROOT takes 4 (ROOT
  reads both); the rows of the dictionary have no array lengths (five maximal indices are a type 23 of length 0).
* The directory record allocated at creation is 12 bytes longer than written.

## Axioms of the theorems in MANIFEST.json

* none: `C05_objstring_write_unsupported`, `C10_negative_bound_lost`, `C27_absolute`
* `propext`: `C05_named_empty_buffer`, `C06_basket_refuses_newer`, `C06_map_version_not_checked`, `C17_slash`, `C17_class`, `C26_listing`, `C27_child`, `C27_prefix`, `C36_width`, `C38_refused`, `C38_false`, `C39_absent_false`, `C40_empty_basket_false`, `C40_embedded_false`, `C41_named_base_type_lost`, `C41_stlstring_unsupported`, `C42_color`, `C42_enum`, `C45_semicolon_accepted`, `C51_headers`, `C54_containers_partial`, `C54_false`, `C59_false`, `C61_false`, `C62_inside_false`, `C75_false`
* `propext, Quot.sound`: `C01_big_endian`, `C01_twos_complement`, `C02_cstring_roundtrip`, `C06_attributes_refuse_newer`, `C06_classes_refuse_newer`, `C06_streamer_element_refuses_newer`, `C20_entries`, `C20_branches`, `C20_in_order`, `C25_callbacks`, `C25_all_callbacks`, `C25_no_after`, `C26_first`, `C26_none`, `C27_documented`, `C27_writer_partial`, `C27_nested_false`, `C27_rename_false`, `C33_packed`, `C34_single_partial`, `C34_zlib_blocks_fail`, `C34_lzma_blocks_fail`, `C34_others_abort`, `C36_inside_partial`, `C36_short`, `C36_cstring_false`, `C37_short_file_partial`, `C37_short_false`, `C37_string_false`, `C37_magic_false`, `C40_rows_partial`, `C40_cuts_partial`, `C43_partial`, `C45_semicolon_unreadable`, `C46_identified`, `C46_refused`, `C47_answers`, `C47_flat`, `C48_storable`, `C48_table`, `C52_false`, `C52_cut`, `C53_members_false`, `C56_reads`, `C56_rows`, `C56_missing`, `C56_mismatch`, `C56_nested_false`, `C57_slices`, `C57_uneven`, `C61_branches`, `C62_others_false`, `C64_base_type_false`, `C64_features_false`, `C70_tree_once`
* `propext, Classical.choice, Quot.sound`: `C01_primitive_roundtrip`, `C02_string_roundtrip`, `C03_nested_roundtrip`, `C03_sequence_roundtrip`, `C04_framing`, `C05_object`, `C05_object_stable`, `C05_named`, `C05_attline`, `C05_attfill`, `C05_attmarker`, `C05_iofeatures`, `C05_objstring`, `C07_new`, `C07_buffer`, `C07_object`, `C07_put`, `C07_basket`, `C08_key_roundtrip`, `C09_date_not_preserved`, `C09_dir_date_not_preserved`, `C09_packed_date_partial`, `C10_free_segment`, `C11_file_header`, `C12_dir_record`, `C13_open`, `C13_closed`, `C13_end`, `C14_bytes`, `C14_put`, `C14_basket`, `C15_reopen`, `C15_long_path`, `C16_last`, `C16_missing`, `C17_cycles`, `C17_accepted`, `C17_refused`, `C17_overflow`, `C18_open`, `C18_closing`, `C19_false`, `C19_dropped_partial`, `C20_unbounded`, `C21_fixed_size`, `column_reopened`, `tree_reopened`, `C22_varying_size`, `C23_short_entries_partial`, `C23_long_entry`, `C23_false`, `C24_tables`, `C24_flushed`, `C28_class_references`, `C28_with_repetitions`, `C28_unregistered_class`, `C29_second_occurrence_lost`, `C29_list_read_aborts`, `C30_list`, `C30_objarray`, `C31_branch_record`, `C31_fields`, `C32_tree_record`, `C32_fields`, `C33_stored`, `C33_plain`, `C35_registered`, `C35_once`, `C37_payload_partial`, `C37_negative_false`, `C38_own_type_partial`, `C39_present`, `C39_absent_partial`, `C41_streamer_record`, `C41_fields`, `C43_nil_false`, `C44_large_file_lost`, `C44_false`, `C45_lookup_partial`, `C47_stored_partial`, `C47_deep`, `C47_nothing`, `C47_false`, `C47_reopened_partial`, `C48_found`, `C48_order`, `C49_closed`, `C49_vectors`, `C49_written`, `C50_total`, `C51_set`, `C51_map`, `C51_negative`, `C52_slice_partial`, `C52_sized`, `C53_vectors_partial`, `C53_sets_partial`, `C53_members_partial`, `C53_slices_partial`, `C53_false`, `C54_shown_partial`, `C54_written_partial`, `C55_described_partial`, `C55_false`, `C56_columns`, `C56_roundtrip_partial`, `C56_session_partial`, `C58_branches`, `C58_tree_partial`, `C58_false`, `C59_user_info_partial`, `C60_basket`, `C60_plain`, `C60_vectors`, `C60_keeps`, `C60_plain_kept_partial`, `C60_vectors_kept_partial`, `C60_false`, `C61_record`, `C61_file`, `C61_entries`, `C61_vectors`, `C62_printed_partial`, `C62_values_partial`, `C62_false`, `C63_open_partial`, `C63_find`, `C63_tree`, `C63_entries`, `C63_long_name_false`, `C63_remark_false`, `C63_pointer_false`, `C64_tree_record_partial`, `C64_tree_in_file`, `C64_class_list_partial`, `C64_class_list_tree_partial`, `C65_deterministic`, `C65_bundled`, `C66_walk`, `C66_only`, `C66_listed`, `C66_open`, `C67_root_file`, `C68_baskets`, `C68_file`, `C69_limit`, `C69_abort`, `C69_numbers_partial`, `C69_too_many`, `C69_false`, `C70_kept`, `C70_again`, `C70_false`, `C70_aborted`, `C71_listed_partial`, `C71_kept_partial`, `C71_lost`, `C71_tree_lost`, `C71_false`, `C72_stored`, `C72_ended_partial`, `C72_false`, `C73_member_partial`, `C73_file_partial`, `C73_tstring`, `C73_false`, `C74_all_or_nothing`, `C74_everything`, `C74_trees`, `C75_refused_partial`, `C75_read_partial`, `C76_text_partial`, `C76_column_partial`, `C76_vectors_partial`, `C76_false`, `C77_short_partial`, `C77_false`
