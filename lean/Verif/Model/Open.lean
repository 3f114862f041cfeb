import Verif.Model.Disk
import Verif.Model.TreeRecords
/-
Opening and reading a file: riofs/file.rs (open, read_header, get_object, get_tree), riofs/dir.rs
(read_dir_info, read_keys, get_object), riofs/key.rs (load, object), rcompress.rs (decompress).
-/
namespace Verif

/-- file.rs 155-163 `RootFile` opened for reading, over the contents of the file. -/
structure FileR where
  header : FileHeader
  spans : List FreeSegments := []
  sinfos : List StreamerInfo := []
  dir : Dir := {}
  img : List Byte

/-- `r.read_object_into::<T>()` on `RBuffer::new(&data, off)`. -/
def readWith {α} (rd : Rd α) (data : List Byte) (off : Nat := 0) : Res α :=
  match rd { p := data, c := 0, offset := off, refs := [], skip := none } with
  | .ok (a, _) => .ok a
  | .error e => .error e

/-! ### Decompression, rcompress.rs -/

/-- The decoders of the external crates: `zlib`/`lzma` give the bytes of the (first) stream of a
source, `lz4` those of a block; nothing when the data are malformed. -/
structure Decoders where
  zlib : List Byte → Option (List Byte)
  lzma : List Byte → Option (List Byte)
  lz4 : List Byte → Option (List Byte)

/-- `d.read_exact(dst)`: an error when the stream is shorter than `dst`. -/
def readExact (n : Nat) : Option (List Byte) → Res (List Byte)
  | none => .error (.err .io)
  | some bs => if n ≤ bs.length then .ok (bs.take n) else .error (.err .io)

/-- rcompress.rs 57-112 `decompress`, filling `dst` (`n` bytes).  `end` is the number of bytes
announced by the block headers so far; `fuel` bounds the number of blocks (each has a 9 byte
header).  The decoders take `src` by value, so the next header is read right after the previous
one.  LZ4: `src[8..]` aborts when shorter, and the decoded size must be at most `n`; what is not
overwritten stays. -/
def decompressLoop (dec : Decoders) (n : Nat) : Nat → Nat → List Byte → List Byte → Res (List Byte)
  | 0, _, _, dst => .ok dst
  | fuel + 1, done, src, dst =>
    if n ≤ done then .ok dst
    else if src.length < 9 then .error (.err .io)
    else
      let hdr := src.take 9
      let src := src.drop 9
      let byte (i : Nat) : Nat := (hdr.getD i 0).toNat
      let tgt := byte 6 + byte 7 * 256 + byte 8 * 65536
      let kind := (byte 0, byte 1)
      if kind = (0x5A, 0x4C) then readExact n (dec.zlib src)
      else if kind = (0x58, 0x5A) then
        match readExact n (dec.lzma src) with
        | .error e => .error e
        | .ok dst => decompressLoop dec n fuel (done + tgt) src dst
      else if kind = (0x4C, 0x34) then
        if src.length < 8 then .error .panic
        else
          match dec.lz4 (src.drop 8) with
          | none => .error (.err .io)
          | some bs => if bs.length ≤ n then .ok (bs ++ dst.drop bs.length) else .error (.err .io)
      else .error .panic

/-- rcompress.rs 57 `decompress` on a zeroed destination. -/
def decompressPayload (dec : Decoders) (n : Nat) (src : List Byte) : Res (List Byte) :=
  decompressLoop dec n (src.length + 1) 0 src (List.replicate n 0)

/-! ### Keys, riofs/key.rs -/

/-- `x as u64` of a signed number. -/
def asU64 (x : Int) : Nat := wrapI 8 x

/-- `a as u64 + b as u64` of signed numbers: aborts if the sum does not fit 64 bits, else the sum.  (A
negative sum stands for a position of at least 2^63, which `readAt` refuses as Rust does.) -/
def sumU64 (a b : Int) : Res Int := if 2 ^ 64 ≤ asU64 a + asU64 b then .error .panic else .ok (a + b)

/-- `a as u64 - b as u64` of signed numbers: aborts below zero, else the difference. -/
def diffU64 (a b : Int) : Res Int := if asU64 a < asU64 b then .error .panic else .ok (a - b)

/-- key.rs 400-415 `load` (and 396-398 `bytes`): the subtraction of `is_compressed` (393) aborts beyond 32
bits, those of the position and the length beyond 64; a negative `obj_len` aborts in `vec!`. -/
def Key.load (dec : Decoders) (img : List Byte) (k : Key) : Res (List Byte) :=
  if ¬ InI 4 (k.nBytes - k.keyLen) then .error .panic
  else if k.isCompressed then
    if k.objLen < 0 then .error .panic
    else do
      let start ← sumU64 k.seekKey k.keyLen
      let len ← diffU64 k.nBytes k.keyLen
      let sr ← readAt img start len
      decompressPayload dec k.objLen.toNat sr
  else do
    let start ← sumU64 k.seekKey k.keyLen
    readAt img start k.objLen

/-- key.rs 417-456 `object`. -/
def Key.object (dec : Decoders) (fuel : Nat) (img : List Byte) (k : Key) : Res Obj := do
  let buf ← k.load dec img
  match factory fuel k.cls with
  | none => .error (.err .classNotRegistered)
  | some m => readWith m buf k.keyLen.toNat

/-! ### Opening, riofs/file.rs 390-614 and riofs/dir.rs 92-185 -/

/-- dir.rs 131-185 `read_dir_info`. -/
def readDirInfo (img : List Byte) (h : FileHeader) : Res Dir :=
  let nbytes := asU64 h.nBytesName + asU64 (dirRecordSize h.version)
  if 2 ^ 64 ≤ nbytes ∨ 2 ^ 64 ≤ nbytes + asU64 h.begin_ then .error .panic
  else if asU64 h.end_ < nbytes + asU64 h.begin_ then .error (.err .incorrectHeaderLength)
  else
    match readAt img h.begin_ nbytes with
    | .error e => .error e
    | .ok data => do
      let dir ← readWith Dir.unmarshal (data.drop h.nBytesName.toNat)
      let vers ← readWith Rd.i16 (data.drop 4)
      let nk := if 1000 < vers then 34 else 26
      if data.length < nk then .error .panic
      else
        let names ← readWith (do
          let c ← Rd.string
          let n ← Rd.string
          let t ← Rd.string
          pure (c, n, t)) (data.drop nk)
        if dir.nBytesName < 10 ∨ 1000 < dir.nBytesName then .error (.err .cantReadDirectoryInfo)
        else .ok { dir with className := names.1, name := names.2.1, title := names.2.2 }

/-- The loop of file.rs 560-564; a segment has at least 10 bytes. -/
def readSpans : Nat → Rd (List FreeSegments)
  | 0 => pure []
  | fuel + 1 => fun r =>
    if r.p.length ≤ r.c then .ok ([], r)
    else (do
      let s ← FreeSegments.unmarshal
      let ss ← readSpans fuel
      pure (s :: ss) : Rd (List FreeSegments)) r

/-- file.rs 535-567 `read_free_segments`. -/
def readFreeSegments (dec : Decoders) (img : List Byte) (h : FileHeader) :
    Res (List FreeSegments) := do
  let buf ← readAt img h.seekFree h.nBytesFree
  let key ← readWith Key.unmarshal buf
  let buf ← key.load dec img
  readWith (readSpans buf.length) buf

/-- file.rs 596-611: one entry of the list; the class a list reports is its name. -/
def takeInfo : Obj → Res (Option StreamerInfo)
  | .sinfo s => .ok (some s)
  | .list _ name _ => if name = b! "TStreamerInfo" then .error .panic else .ok none
  | _ => .error .panic

/-- The loop of file.rs 596-612, from the last entry to the first. -/
def takeInfos : List Obj → Res (List StreamerInfo)
  | [] => .ok []
  | o :: os => do
    let rest ← takeInfos os
    let s ← takeInfo o
    pure (rest ++ s.toList)

/-- file.rs 569-614 `read_streamer_info`. -/
def readStreamerInfo (dec : Decoders) (fuel : Nat) (img : List Byte) (h : FileHeader) :
    Res (List StreamerInfo) :=
  if h.seekInfo ≤ 0 ∨ h.end_ ≤ h.seekInfo then .error (.err .invalidPointerToStreamerInfo)
  else do
    let buf ← readAt img h.seekInfo h.nBytesInfo
    let key ← readWith Key.unmarshal buf
    match ← key.object dec fuel img with
    | .list _ _ objs => takeInfos objs
    | _ => .error .panic

/-- dir.rs 112-124: one key of the list. -/
def readKeyEntry : Rd Key := do
  let k ← Key.unmarshal
  pure (if k.cls = b! "TDirectory" then { k with cls := b! "TDirectoryFile" } else k)

/-- dir.rs 92-129 `read_keys`: the keys of the directory. -/
def readKeys (img : List Byte) (d : Dir) : Res (List Key) :=
  if d.seekKeys ≤ 0 then .error (.err .directoryNegativeSeekKeys)
  else do
    let data ← readAt img d.seekKeys d.nBytesKeys
    let hdr ← readWith Key.unmarshal data
    let start ← sumU64 d.seekKeys hdr.keyLen
    let data ← readAt img start hdr.objLen
    readWith (do
      let n ← Rd.i32
      Rd.times n.toNat readKeyEntry) data

/-- file.rs 447-459: a part that is read when its position is positive. -/
def whenPositive {α} (seek : Int) (m : Res (List α)) : Res (List α) :=
  if 0 < seek then m else .ok []

/-- file.rs 180-195 `open`, with 390-461 `read_header`. -/
def openFile (dec : Decoders) (fuel : Nat) (img : List Byte) : Res FileR := do
  let buf ← readAt img 0 (64 + 12)
  let h ← readWith FileHeader.unmarshal buf
  let dir ← readDirInfo img h
  let spans ← whenPositive h.seekFree (readFreeSegments dec img h)
  let sinfos ← whenPositive h.seekInfo (readStreamerInfo dec fuel img h)
  let keys ← readKeys img dir
  pure { header := h, spans := spans, sinfos := sinfos, dir := { dir with keys := keys }, img := img }

/-! ### Looking an object up -/

/-- file.rs 903-905 `keys_name`. -/
def FileR.keysName (f : FileR) : List Str := f.dir.keys.map Key.name

/-- riofs/utils.rs 4-15 `decode_name_cycle`: with one `;` (59) it is `unimplemented!()`. -/
def decodeNameCycle (s : Str) : Res Str :=
  match s.count 59 with
  | 0 => .ok s
  | 1 => .error .panic
  | _ => .error (.err .cantDecodeNameCycle)

/-- dir.rs 304-332: the key that is used; `sort_by_key` is stable. -/
def chooseKey (name : Str) (keys : List Key) : Res Key :=
  match keys.filter (fun k => k.name = name) with
  | [] => .error (.err .keyNotInFile)
  | [k] => .ok k
  | ks =>
    match (ks.mergeSort (fun a b => decide (a.cycle ≤ b.cycle))).getLast? with
    | some k => .ok k
    | none => .error .panic

/-- The key `get_object` uses for a name. -/
def FileR.findKey (f : FileR) (namecycle : Str) : Res Key := do
  let name ← decodeNameCycle namecycle
  chooseKey name f.dir.keys

/-- file.rs 882-893 and dir.rs 294-343 `get_object`. -/
def FileR.getObject (dec : Decoders) (fuel : Nat) (f : FileR) (namecycle : Str) : Res Obj := do
  let k ← f.findKey namecycle
  k.object dec fuel f.img

/-- file.rs 895-902 `get_tree`: another class aborts in `expect`. -/
def FileR.getTree (dec : Decoders) (fuel : Nat) (f : FileR) (name : Str) :
    Res (TreeData × List Branch × Option (TObject × Str × List Obj)) := do
  match ← f.getObject dec fuel name with
  | .tree t b u => .ok (t, b, u)
  | _ => .error .panic

end Verif
