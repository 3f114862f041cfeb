import Verif.Model.Disk
import Verif.Model.TreeRecords
/-
Writing a file: riofs/key.rs (constructors), riofs/file.rs (create, put, close), riofs/dir.rs (save),
rdict/streamers/db.rs and rdict/mod.rs (the search for the classes a record depends on),
rcompress.rs (compress).
-/
namespace Verif

/-- A cast to a signed integer of `k` bytes (`as i32`, `as i16`). -/
def asI (k : Nat) (v : Int) : Int := toSigned k (wrapI k v)

/-! ### The file being written -/

/-- file.rs 155-163 `RootFile` opened for writing.  `ids` is the process-wide counter of
db.rs 62, `trace` the positioned writes issued so far, oldest first. -/
structure FileW where
  header : FileHeader
  spans : List FreeSegments
  sinfos : List StreamerInfo := []
  dir : Dir
  id : Str
  ids : Nat := 0
  trace : List DiskWrite := []

/-- A method on `&mut RootFile`: the file keeps its changes also when an error is returned. -/
def Fs (α : Type) : Type := FileW → Except Fault α × FileW

namespace Fs

instance : Monad Fs where
  pure a := fun f => (.ok a, f)
  bind m k := fun f =>
    match m f with
    | (.ok a, f') => k a f'
    | (.error e, f') => (.error e, f')

/-- The current file. -/
def get : Fs FileW := fun f => (.ok f, f)
/-- Changing the file in memory. -/
def modify (g : FileW → FileW) : Fs Unit := fun f => (.ok (), g f)
/-- `return Err(e)`. -/
def fail {α} (e : Err) : Fs α := fun f => (.error (.err e), f)
/-- `panic!`, `todo!()`, `unwrap()` on nothing. -/
def panic {α} : Fs α := fun f => (.error .panic, f)
/-- A computation that does not touch the file. -/
def lift {α} (r : Res α) : Fs α := fun f => (r, f)
/-- `unwrap`/`expect`. -/
def orPanic {α} : Option α → Fs α
  | some a => pure a
  | none => panic
/-- A sum in `i32`; leaving the range aborts (debug build). -/
def i32 (v : Int) : Fs Int := if InI 4 v then pure v else panic

/-- `let mut buf = WBuffer::new(off); obj.marshal(&mut buf)?; buf.buffer()`. -/
def marshal (off : Int) (m : Wr Nat) : Fs (List Byte) := fun f =>
  match m (WBuffer.new off.toNat) with
  | .ok (_, w) => (.ok w.p, f)
  | .error e => (.error e, f)

/-- file.rs 125-133, 388-391 `write_at`; a "negative" position cannot be sought.  Failures of the
operating system (disk full) are not modelled. -/
def writeAt (data : List Byte) (pos : Int) : Fs Unit := fun f =>
  if pos < 0 then (.error (.err .io), f)
  else (.ok (), { f with trace := f.trace ++ [⟨pos.toNat, data⟩] })

/-- file.rs 463-475 `set_end`. -/
def setEnd (pos : Int) : Fs Unit := do
  modify fun f => { f with header := { f.header with end_ := pos } }
  let f ← get
  match f.spans.getLast? with
  | none => panic
  | some blk =>
    if blk.last ≠ kStartBigFile then panic
    else modify fun f => { f with spans := f.spans.dropLast ++ [{ blk with first := pos }] }

end Fs

/-- file.rs 917-919 `is_big_file`. -/
def FileW.isBig (f : FileW) : Bool := f.header.isBig

/-! ### Compression, rcompress.rs -/

/-- rcompress.rs 133-143 `compress`, with `root_compress_algo_level` 118-131. -/
def compressPayload (src : List Byte) (compression : Int) : Res (List Byte) :=
  if compression ≠ 1 then .error .panic
  else if compression.tdiv 100 = 0 ∨ compression.tmod 100 = 0 ∨ src.length < 512 then .ok src
  else .error .panic

/-! ### Keys, riofs/key.rs -/

/-- `key_len_for(name, title, class, f)` (key.rs 513-536). -/
def FileW.keyLenFor (f : FileW) (name title cls : Str) : Int :=
  Verif.keyLenFor name title cls f.dir.isBig f.isBig

/-- key.rs 213-242 `Key::new`. -/
def Key.new (name title cls : Str) (objLen : Int) : Fs Key := do
  let f ← Fs.get
  let keyLen ← Fs.i32 (f.keyLenFor name title cls)
  let nBytes ← Fs.i32 (objLen + keyLen)
  let seek := if 0 < objLen then f.header.end_ else 100
  if 0 < objLen then Fs.setEnd (seek + nBytes)
  let f ← Fs.get
  pure { rvers := if f.isBig then rversKey + 1000 else rversKey
         nBytes := nBytes, objLen := objLen, keyLen := keyLen, seekKey := seek,
         seekPdir := f.dir.seekDir, cls := cls, name := name, title := title }

/-- key.rs 244-298 `new_from_buffer`. -/
def Key.newFromBuffer (name title cls : Str) (cycle : Int) (buf : List Byte) : Fs Key := do
  let f ← Fs.get
  let keyLen ← Fs.i32 (f.keyLenFor name title cls)
  let objLen := asI 4 buf.length
  let _ ← Fs.i32 (keyLen + objLen)
  let buffer ← Fs.lift (compressPayload buf f.header.compression)
  let nBytes ← Fs.i32 (keyLen + asI 4 buffer.length)
  Fs.setEnd (f.header.end_ + nBytes)
  pure { rvers := if f.isBig then rversKey + 1000 else rversKey
         nBytes := nBytes, objLen := objLen, keyLen := keyLen, cycle := cycle,
         seekKey := f.header.end_, seekPdir := f.dir.seekDir,
         cls := cls, name := name, title := title, buffer := buffer }

/-- key.rs 300-324 `new_key_for_basket_internal`. -/
def Key.newForBasket (name title cls : Str) (cycle : Int) (f : FileW) : Key :=
  { rvers := if f.isBig then rversKey + 1000 else rversKey
    nBytes := f.keyLenFor name title cls, keyLen := f.keyLenFor name title cls, cycle := cycle,
    seekPdir := f.dir.seekDir, cls := cls, name := name, title := title }

/-- key.rs 326-379 `new_from_object`; the object is its `marshal`. -/
def Key.newFromObject (name title cls : Str) (obj : Wr Nat) : Fs Key := do
  let f ← Fs.get
  let keyLen ← Fs.i32 (f.keyLenFor name title cls)
  let buf ← Fs.marshal keyLen obj
  let objLen := asI 4 buf.length
  let _ ← Fs.i32 (keyLen + objLen)
  let buffer ← Fs.lift (compressPayload buf f.header.compression)
  let nBytes ← Fs.i32 (keyLen + asI 4 buffer.length)
  Fs.setEnd (f.header.end_ + nBytes)
  pure { rvers := if f.isBig then rversKey + 1000 else rversKey
         nBytes := nBytes, objLen := objLen, keyLen := keyLen, cycle := 1,
         seekKey := f.header.end_, seekPdir := f.dir.seekDir,
         cls := cls, name := name, title := title, buffer := buffer }

/-- key.rs 477-501 `write_to_file`. -/
def Key.writeToFile (k : Key) : Fs Unit := do
  if 0 < k.left then Fs.panic
  else
    let buf ← Fs.marshal 0 k.marshal
    Fs.writeAt buf k.seekKey
    Fs.writeAt k.buffer (k.seekKey + k.keyLen)

/-! ### Streamer records and their dependencies -/

/-- What the process provides: the bundled dictionary (`DBSTREAMER`, db.rs: the entry `name-vers`,
or, for `vers ≤ 0`, some entry whose key starts with `name-`), and the addresses at which the
records of a file are stored when they are written. -/
structure Env where
  db : Str → Int → Option StreamerInfo
  addr : Nat → Nat

/-- An element with another identification number. -/
def Streamer.withId (n : Nat) : Streamer → Streamer
  | .string e => .string { e with id := n }
  | .stlString e v c => .stlString { e with id := n } v c
  | .basicType e => .basicType { e with id := n }
  | .basicPointer e v a c => .basicPointer { e with id := n } v a c
  | .objectAny e => .objectAny { e with id := n }
  | .stl e v c => .stl { e with id := n } v c
  | .base e v => .base { e with id := n } v
  | .object e => .object { e with id := n }
  | .objectPointer e => .objectPointer { e with id := n }

/-- Cloning the elements one after the other (rdict/mod.rs 509-526). -/
def cloneElems : Nat → List Streamer → List Streamer
  | _, [] => []
  | n, e :: es => e.withId n :: cloneElems (n + 1) es

/-- rdict/mod.rs 235-245 `StreamerInfo::clone`, when the counter is `n`; it advances by
`s.elems.length + 1`. -/
def StreamerInfo.cloneAt (s : StreamerInfo) (n : Nat) : StreamerInfo :=
  { s with elems := cloneElems n s.elems, id := n + s.elems.length }

/-- db.rs 29-45 `DbStreamer::get`: clones the record and takes one more number for it.  Nothing found
is an abort in all callers. -/
def Env.lookup (env : Env) (name : Str) (vers : Int) (n : Nat) : Res (StreamerInfo × Nat) :=
  match env.db name vers with
  | none => .error .panic
  | some s =>
    .ok ({ s.cloneAt n with id := n + s.elems.length + 1 }, n + s.elems.length + 2)

/-- utils.rs 1-10 `CORE_TYPES`. -/
def coreTypes : List Str :=
  [b! "TObject", b! "TFile", b! "TDirectoryFile", b! "TKey", b! "TString", b! "TDatime",
   b! "TVirtualIndex", b! "TBasket"]

/-- utils.rs 16-73 `CXX_BUILTINS`. -/
def cxxBuiltins : List Str :=
  [b! "bool", b! "int8_t", b! "uint8_t", b! "int16_t", b! "uint16_t", b! "int32_t", b! "uint32_t",
   b! "int64_t", b! "uint64_t", b! "unsigned", b! "unsigned char", b! "unsigned short",
   b! "unsigned int", b! "unsigned long", b! "char", b! "short", b! "int", b! "long", b! "float",
   b! "double", b! "string", b! "Bool_t", b! "Byte_t", b! "Char_t", b! "UChar_t", b! "Short_t",
   b! "UShort_t", b! "Int_t", b! "UInt_t", b! "Seek_t", b! "Long_t", b! "ULong_t", b! "Long64_t",
   b! "ULong64_t", b! "Float_t", b! "Float16_t", b! "Double_t", b! "Double32_t", b! "Version_t",
   b! "Option_t", b! "Ssiz_t", b! "Real_t", b! "Axis_t", b! "Stat_t", b! "Font_t", b! "Style_t",
   b! "Marker_t", b! "Width_t", b! "Color_t", b! "SCoord_t", b! "Coord_t", b! "Angle_t",
   b! "Size_t"]

/-- A byte of `[A-Za-z_0123456789]`. -/
def isWordByte (b : Byte) : Bool :=
  (65 ≤ b && b ≤ 90) || (97 ≤ b && b ≤ 122) || b = 95 || (48 ≤ b && b ≤ 57)

/-- The text after `vector<`: a non-empty word followed by `>` (62). -/
def vectorWord (s : Str) : Option Str :=
  let w := s.takeWhile isWordByte
  if w ≠ [] ∧ (s.drop w.length).head? = some 62 then some w else none

/-- file.rs 787-790: the first match of `vector<([A-Za-z_0123456789]+)>`. -/
def captureVector : Str → Option Str
  | [] => none
  | b :: s =>
    if (b! "vector<").isPrefixOf (b :: s) then
      match vectorWord ((b :: s).drop 7) with
      | some w => some w
      | none => captureVector s
    else captureVector s

/-- `trim_end_matches('*')` (42). -/
def trimStars (s : Str) : Str := (s.reverse.dropWhile (· = 42)).reverse

/-- file.rs 762-830: the class and version an element depends on. -/
def Streamer.dep : Streamer → Res (Option (Str × Int))
  | .string e => .ok (some (e.ename, -1))
  | .stlString e _ _ => .ok (some (e.ename, -1))
  | .basicType _ => .ok none
  | .basicPointer .. => .ok none
  | .stl e vtype _ =>
    if vtype = .vector then
      match captureVector e.ename with
      | some w => .ok (some (w, -1))
      | none => .error .panic
    else .error .panic
  | .base e vbase => .ok (some (e.named.name, asI 2 vbase))
  | .object e => .ok (some (e.ename, -1))
  | .objectAny e => .ok (some (e.ename, -1))
  | .objectPointer e => .ok (some (trimStars e.ename, -1))

/-- rdict/mod.rs 430-478: the class whose record is visited next. -/
def Streamer.next : Streamer → Option Str
  | .string _ | .stlString .. | .basicType _ | .basicPointer .. | .stl .. => none
  | .objectAny e | .object e => some e.ename
  | .base e _ => some e.named.name
  | .objectPointer e => some (trimStars e.ename)

/-- State of `Visitor` (rdict/mod.rs 363-381) with the list `v` of file.rs 748 and the counter. -/
structure VisitState where
  visited : List Nat := []
  deps : List (Str × Int) := []
  ids : Nat

/-- rdict/mod.rs 401-481 `visit`; `run` visits the elements of a record one level deeper. -/
def visitElem (env : Env) (run : List Streamer → VisitState → Res VisitState) (se : Streamer)
    (st : VisitState) : Res VisitState :=
  if se.element.id ∈ st.visited then .ok st
  else do
    let d ← se.dep
    let st := { st with visited := st.visited ++ [se.element.id], deps := st.deps ++ d.toList }
    if se.element.ename = b! "TVirtualIndex" ∨ se.element.ename = b! "TVirtualIndex*" then .ok st
    else
      match se.next with
      | none => .ok st
      | some name => do
        let (si, n) ← env.lookup name (-1) st.ids
        run si.elems { st with ids := n }

/-- rdict/mod.rs 383-399 `run`, when `fuel` more levels are allowed (at depth 10 `visit` is
`todo!()`). -/
def visitElems (env : Env) : Nat → List Streamer → VisitState → Res VisitState
  | 0, es, st => if es = [] then .ok st else .error .panic
  | fuel + 1, es, st => es.foldlM (fun st se => visitElem env (visitElems env fuel) se st) st

/-- file.rs 755-836: the dependencies of all the records of the file, in order; the visitor is new
for each record. -/
def visitInfos (env : Env) (sis : List StreamerInfo) (n : Nat) : Res (List (Str × Int) × Nat) :=
  sis.foldlM (fun (acc : List (Str × Int) × Nat) si => do
    let st ← visitElems env 10 si.elems { deps := acc.1, ids := acc.2 }
    pure (st.deps, st.ids)) ([], n)

/-- file.rs 341-351 `add_streamer_info`. -/
def addStreamerInfo (si : StreamerInfo) : Fs Unit := do
  let f ← Fs.get
  if f.sinfos.any (fun s => s.name = si.name) then pure ()
  else Fs.modify fun f => { f with sinfos := f.sinfos ++ [si] }

/-- rtree/tree/writer.rs 174-176: `file.add_streamer_info(si.clone())`. -/
def registerInfo (si : StreamerInfo) : Fs Unit := do
  let f ← Fs.get
  Fs.modify fun f => { f with ids := f.ids + si.elems.length + 1 }
  addStreamerInfo (si.cloneAt f.ids)

/-- `streamer_info(name, vers).unwrap()` on the process-wide dictionary. -/
def Fs.dictionary (env : Env) (name : Str) (vers : Int) : Fs StreamerInfo := do
  let f ← Fs.get
  let (si, n) ← Fs.lift (env.lookup name vers f.ids)
  Fs.modify fun f => { f with ids := n }
  pure si

/-- The loop of file.rs 839-862. -/
def addDeps (env : Env) : List (Str × Int) → Fs Unit
  | [] => pure ()
  | d :: ds => do
    if d.1 ∈ coreTypes ∨ d.1 ∈ cxxBuiltins then addDeps env ds
    else
      let si ← Fs.dictionary env d.1 d.2
      addStreamerInfo si
      addDeps env ds

/-- file.rs 739-880 `find_deep_streamer`. -/
def findDeepStreamer (env : Env) : Fs Unit := do
  let f ← Fs.get
  let (deps, n) ← Fs.lift (visitInfos env f.sinfos f.ids)
  Fs.modify fun f => { f with ids := n }
  addDeps env deps

/-! ### Creating, closing -/

/-- file.rs 477-533 `write_header`. -/
def writeHeader : Fs Unit := do
  Fs.modify fun f => { f with header := { f.header with nFree := asI 4 f.spans.length } }
  Fs.modify fun f => { f with header := f.header.adjusted }
  let f ← Fs.get
  let buf ← Fs.marshal f.header.begin_ f.header.marshal
  Fs.writeAt (List.replicate f.header.begin_.toNat 0) 0
  Fs.writeAt buf 0

/-- rvers.rs `ROOT`. -/
def rversRoot : Int := 63002

/-- file.rs 210-236: the file object before anything is written; `id` is the path. -/
def FileW.initial (path : Str) (ids : Nat) : FileW :=
  { header := { version := rversRoot, begin_ := kBegin, end_ := kBegin, units := 4, compression := 1 }
    spans := [{ first := kBegin, last := kStartBigFile }]
    dir := { name := path }
    id := path
    ids := ids }

/-- file.rs 237-281: the rest of `create`. -/
def createFile : Fs Unit := do
  let f ← Fs.get
  let nameLen ← Fs.i32 (tstringSizeof f.dir.name + tstringSizeof f.dir.title)
  let objLen ← Fs.i32 (nameLen + dirRecordSize f.header.version)
  let key ← Key.new f.dir.name f.dir.title (b! "TFile") objLen
  let n ← Fs.i32 (key.keyLen + nameLen)
  Fs.modify fun f => { f with
    header := { f.header with nBytesName := n }
    dir := { f.dir with nBytesName := n, seekDir := key.seekKey } }
  writeHeader
  let f ← Fs.get
  let buf ← Fs.marshal 0 (Wr.counted do
    Wr.string f.id
    Wr.string f.dir.title
    Wr.drop f.dir.marshal)
  Key.writeToFile { key with buffer := buf }

/-- What `put` stores: an object with its name, title, class, class version and `marshal`. -/
structure PutObj where
  name : Str
  title : Str
  cls : Str
  vers : Int
  marshal : Wr Nat

/-- file.rs 303-318: the largest cycle of the keys called `name`, starting from `c`, unless one of
them has another class. -/
def lastCycle (name cls : Str) : List Key → Int → Option Int
  | [], c => some c
  | k :: ks, c =>
    if k.name ≠ name then lastCycle name cls ks c
    else if k.cls ≠ cls then none
    else lastCycle name cls ks (if c < k.cycle then k.cycle else c)

/-- file.rs 284-339 `put`; `/` is 47. -/
def put (env : Env) (name : Str) (obj : PutObj) : Fs Unit := do
  if (47 : Byte) ∈ name then Fs.fail .nameContainsSlash
  else
    let name := if name = [] then obj.name else name
    let f ← Fs.get
    match lastCycle name obj.cls f.dir.keys 0 with
    | none => Fs.fail .keyClassMismatch
    | some c =>
      if obj.cls ∉ coreTypes then
        let si ← Fs.dictionary env obj.cls obj.vers
        addStreamerInfo si
      let key ← Key.newFromObject name obj.title obj.cls obj.marshal
      let key := { key with cycle := asI 2 (c + 1) }
      Key.writeToFile key
      Fs.modify fun f => { f with dir := { f.dir with keys := f.dir.keys ++ [key] } }

/-- A sum of `i32` lengths, aborting on overflow. -/
def Fs.sum : Int → List Int → Fs Int
  | acc, [] => pure acc
  | acc, v :: vs => do
    let acc ← Fs.i32 (acc + v)
    Fs.sum acc vs

/-- dir.rs 202-268 `save_keys`, on a copy `d` of the directory. -/
def saveKeys (d : Dir) : Fs Dir := do
  let f ← Fs.get
  let nBytes ← Fs.sum (if f.isBig then 4 + 8 else 4) (d.keys.map Key.keyLen)
  let hdr ← Key.new d.name d.title (b! "TDirectory") nBytes
  let buf ← Fs.marshal 0 (Wr.counted do
    Wr.i32 d.keys.length
    Wr.each (fun k => Wr.drop k.marshal) d.keys)
  Key.writeToFile { hdr with buffer := buf }
  pure { d with seekKeys := hdr.seekKey, nBytesKeys := hdr.nBytes }

/-- dir.rs 270-292 `write_header`. -/
def writeDirHeader (d : Dir) : Fs Dir := do
  let d := { d with mtime := dateNow }
  let buf ← Fs.marshal 0 d.marshal
  Fs.writeAt buf (d.seekDir + d.nBytesName)
  pure d

/-- The title of a `WriterList` (rcont/list.rs 143-145). -/
def listTitle : Str := b! "Doubly linked list"

/-- The records as `WriterList::push` gets them (file.rs 629-633); `i` is the index of the first. -/
def placedInfos (env : Env) : Nat → List StreamerInfo → List WObj
  | _, [] => []
  | i, s :: ss =>
    { cls := b! "TStreamerInfo", addr := env.addr i, marshal := s.marshal } ::
      placedInfos env (i + 1) ss

/-- file.rs 616-692 `write_streamer_info`. -/
def writeStreamerInfo (env : Env) : Fs Unit := do
  findDeepStreamer env
  let f ← Fs.get
  if f.header.seekInfo ≠ 0 then Fs.panic
  else
    let key ← Key.new (b! "StreamerInfo") listTitle (b! "TList") 0
    let buf ← Fs.marshal key.keyLen
      (TList.marshal TObject.default none (placedInfos env 0 f.sinfos))
    let key ← Key.newFromBuffer (b! "StreamerInfo") listTitle (b! "TList") 1 buf
    Fs.modify fun f => { f with
      header := { f.header with seekInfo := key.seekKey, nBytesInfo := key.nBytes } }
    Key.writeToFile key

/-- file.rs 694-737 `write_free_segments`. -/
def writeFreeSegments : Fs Unit := do
  let f ← Fs.get
  if f.header.seekFree ≠ 0 then Fs.panic
  else
    let nbytes ← Fs.sum 0 (f.spans.map FreeSegments.sizeOf)
    let key ← Key.new f.dir.name f.dir.title (b! "TFile") nbytes
    if key.seekKey = 0 then Fs.panic
    else
      let f ← Fs.get
      if ¬ f.isBig ∧ kStartBigFile < f.header.end_ then Fs.panic
      else
        let buf ← Fs.marshal 0 (Wr.counted do
          Wr.each (fun s => Wr.drop s.marshal) f.spans)
        if (buf.length : Int) ≠ key.objLen then Fs.panic
        else
          Fs.modify fun f => { f with
            header := { f.header with nBytesFree := key.nBytes, seekFree := key.seekKey } }
          Key.writeToFile { key with buffer := buf }

/-- file.rs 353-362 `close`, with dir.rs 187-200 `close`/`save`. -/
def closeFile (env : Env) : Fs Unit := do
  let f ← Fs.get
  let d ← saveKeys f.dir
  let d ← writeDirHeader d
  Fs.modify fun f => { f with dir := d }
  writeStreamerInfo env
  writeFreeSegments
  writeHeader

/-! ### Storing a basket, rtree/wbasket.rs -/

/-- wbasket.rs 14-18 `WBasket`. -/
structure WBasket where
  basket : Basket
  wbuf : WBuffer := WBuffer.new 0

/-- wbasket.rs 157-199 `marshal`. -/
def Basket.marshal (b : Basket) : Wr Nat := Wr.counted do
  Wr.drop b.key.marshal
  Wr.i16 b.rvers
  Wr.i32 b.bufSize
  Wr.i32 b.nevSize
  Wr.i32 b.nevBuf
  Wr.i32 b.last
  Wr.u8 0

/-- wbasket.rs 78-103: the offset table is appended to the data. -/
def Basket.appendTable (bk : Basket) (wbuf : WBuffer) : Fs WBuffer :=
  if bk.offsets.isEmpty then pure wbuf
  else if bk.nevBuf < 0 ∨ (bk.offsets.length : Int) < bk.nevBuf then Fs.panic
  else do
    let n ← Fs.i32 (bk.nevBuf + 1)
    let w ← Fs.lift ((do
      Wr.i32 n
      Wr.each Wr.i32 (bk.offsets.take bk.nevBuf.toNat)
      Wr.i32 0) wbuf)
    pure w.2

/-- wbasket.rs 63-154 `write_to_file`; returns the basket as it is left and the two byte counts.  The
sums of `i32` offsets with 8 (only above 2 GB) are not checked for overflow. -/
def WBasket.writeToFile (b : WBasket) : Fs (WBasket × Int × Int) := do
  let f ← Fs.get
  let adjust : Bool := b.basket.key.rvers ≤ 1000 && f.isBig
  let last ← Fs.i32 (b.basket.key.keyLen + asI 4 b.wbuf.p.length)
  let offsets : List Int := if adjust then b.basket.offsets.map (· + 8) else b.basket.offsets
  let bk : Basket := { b.basket with last := last, offsets := offsets }
  let wbuf ← bk.appendTable b.wbuf
  let key ← Key.newFromBuffer bk.key.name bk.key.title (b! "TBasket") bk.key.cycle wbuf.p
  let bk : Basket := { bk with key := key, last := if adjust then bk.last + 8 else bk.last }
  let n ← Fs.i32 (key.keyLen + key.objLen)
  let buf ← Fs.marshal key.keyLen bk.marshal
  Fs.writeAt buf key.seekKey
  Fs.writeAt key.buffer (key.seekKey + key.keyLen)
  pure ({ basket := bk, wbuf := { wbuf with p := [], c := 0 } }, n, key.nBytes)

end Verif
