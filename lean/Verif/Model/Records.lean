import Verif.Model.Objects
/-
The fixed records of a file: keys, free segments, the file header and the directory record
(riofs/key.rs, riofs/blocks.rs, riofs/file.rs, riofs/dir.rs, riofs/utils.rs, root.rs).
-/
namespace Verif

/-- riofs/consts.rs 3 `kBEGIN`. -/
def kBegin : Int := 100
/-- riofs/consts.rs 8 `kStartBigFile`. -/
def kStartBigFile : Int := 2000000000
/-- rvers.rs `KEY`. -/
def rversKey : Int := 4
/-- rvers.rs `DIRECTORY`. -/
def rversDirectory : Int := 5
/-- rvers.rs `UUID`. -/
def rversUuid : Int := 1

/-! ### Dates, riofs/utils.rs and chrono -/

/-- Gregorian leap years. -/
def isLeap (y : Nat) : Bool := y % 4 = 0 && (y % 100 ≠ 0 || y % 400 = 0)

/-- Days in each month of a year. -/
def monthLens (y : Nat) : List Nat :=
  [31, if isLeap y then 29 else 28, 31, 30, 31, 30, 31, 31, 30, 31, 30, 31]

/-- Month and day of month (both from 1) of the `d`-th day (from 0) counted over months of the
given lengths, the first of which has number `m`. -/
def splitMonth : List Nat → Nat → Nat → Nat × Nat
  | [], m, d => (m, d + 1)
  | l :: ls, m, d => if d < l then (m, d + 1) else splitMonth ls (m + 1) (d - l)

/-- Calendar date of the `d`-th day (from 0) after the first of January of year `y`; `fuel` bounds
the number of years. -/
def civilFrom : Nat → Nat → Nat → Nat × Nat × Nat
  | 0, y, d => (y, splitMonth (monthLens y) 1 d)
  | fuel + 1, y, d =>
    if d < (monthLens y).sum then (y, splitMonth (monthLens y) 1 d)
    else civilFrom fuel (y + 1) (d - (monthLens y).sum)

/-- Calendar date (year, month, day) of a number of days since 1970-01-01: what chrono's
`DateTime::year/month/day` return (proleptic Gregorian calendar). -/
def civil (days : Nat) : Nat × Nat × Nat := civilFrom (days / 365) 1970 days

/-- riofs/utils.rs 17-21 `now`: a fixed date. A `DateTime<Utc>` is its number of seconds since
1970. -/
def dateNow : Nat := 1657861095

/-- riofs/utils.rs 23-36 `datetime_to_u32`: aborts before 1995; the shifts are on `u32`. -/
def datetimeToU32 (t : Nat) : Res Nat :=
  let (y, m, d) := civil (t / 86400)
  let s := t % 86400
  if y < 1995 then .error .panic
  else .ok ((((y - 1995) <<< 26) % 2 ^ 32) ||| (m <<< 22) ||| (d <<< 17) ||| ((s / 3600) <<< 12) |||
    ((s / 60 % 60) <<< 6) ||| (s % 60))

/-- `w.write_u32(datetime_to_u32(t))?` (key.rs 163, dir.rs 444-447). -/
def Wr.datetime (t : Nat) : Wr Unit := fun w =>
  match datetimeToU32 t with
  | .ok v => Wr.u32 v w
  | .error e => .error e

/-- `DateTime::from_timestamp(r.read_u32()? as i64, 0).unwrap()` (key.rs 97, dir.rs 385-389); every
`u32` is in chrono's range. -/
def Rd.datetime : Rd Nat := Rd.u32

/-! ### Keys, riofs/key.rs -/

/-- key.rs 31-60 `Key`. -/
structure Key where
  rvers : Int := rversKey
  nBytes : Int := 0
  objLen : Int := 0
  datetime : Nat := dateNow
  keyLen : Int := 0
  cycle : Int := 1
  seekKey : Int := 100
  seekPdir : Int := 0
  cls : Str := []
  name : Str := []
  title : Str := []
  left : Int := 0
  buffer : List Byte := []
  deriving DecidableEq, Repr

/-- A position field: 8 bytes in the large file form, else 4 (key.rs 108-118, dir.rs 396-410,
blocks.rs 31-41, file.rs 410-421). -/
def Rd.seek (big : Bool) : Rd Int := if big then Rd.i64 else Rd.i32

/-- The writing counterpart, with the `as i32` cast (key.rs 169-175, blocks.rs 60-66). -/
def Wr.seek (big : Bool) (v : Int) : Wr Unit := if big then Wr.i64 v else Wr.i32 v

/-- key.rs 82-139 `unmarshal`, on a default key. -/
def Key.unmarshal : Rd Key := do
  let nBytes ← Rd.i32
  if nBytes < 0 then pure { nBytes := nBytes, cls := b! "[GAP]" }
  else
    let rvers ← Rd.i16
    let objLen ← Rd.i32
    let datetime ← Rd.datetime
    let keyLen ← Rd.i16
    let cycle ← Rd.i16
    let seekKey ← Rd.seek (1000 < rvers)
    let seekPdir ← Rd.seek (1000 < rvers)
    let cls ← Rd.string
    let name ← Rd.string
    let title ← Rd.string
    pure { rvers := rvers, nBytes := nBytes, objLen := objLen, datetime := datetime,
           keyLen := keyLen, cycle := cycle, seekKey := seekKey, seekPdir := seekPdir,
           cls := cls, name := name, title := title }

/-- key.rs 141-194 `marshal`. -/
def Key.marshal (k : Key) : Wr Nat := Wr.counted do
  Wr.i32 k.nBytes
  if k.nBytes < 0 then Wr.panic
  else
    Wr.i16 (if kStartBigFile < k.seekKey ∧ k.rvers < 1000 then k.rvers + 1000 else k.rvers)
    Wr.i32 k.objLen
    Wr.datetime k.datetime
    Wr.i16 k.keyLen
    Wr.i16 k.cycle
    Wr.seek (1000 < k.rvers) k.seekKey
    Wr.seek (1000 < k.rvers) k.seekPdir
    Wr.string k.cls
    Wr.string k.name
    Wr.string k.title

/-- root.rs 7-14 `tstring_sizeof`. -/
def tstringSizeof (s : Str) : Int := if 254 < s.length then s.length + 1 + 4 else s.length + 1

/-- key.rs 513-536 `key_len_for`; `dirBig` is `f.dir().is_big_file()`, `fileBig` is
`f.is_big_file()`; `datime_sizeof` is 4 (root.rs 16-18). -/
def keyLenFor (name title cls : Str) (dirBig fileBig : Bool) : Int :=
  22 + (if dirBig || fileBig then 8 else 0) + 4 + tstringSizeof cls + tstringSizeof name +
    tstringSizeof title + (if cls = b! "TBasket" then 2 + 4 + 4 + 4 + 4 + 1 else 0)

/-- key.rs 392-394 `is_compressed`. -/
def Key.isCompressed (k : Key) : Bool := k.objLen ≠ k.nBytes - k.keyLen

/-! ### Free segments, riofs/blocks.rs -/

/-- blocks.rs 8-13 `FreeSegments`. -/
structure FreeSegments where
  first : Int
  last : Int
  deriving DecidableEq, Repr

/-- blocks.rs 19-24 `size_of`. -/
def FreeSegments.sizeOf (s : FreeSegments) : Int := if kStartBigFile < s.last then 18 else 10

/-- blocks.rs 27-47 `unmarshal`. -/
def FreeSegments.unmarshal : Rd FreeSegments := do
  let vers ← Rd.i16
  let first ← Rd.seek (1000 < vers)
  let last ← Rd.seek (1000 < vers)
  pure { first := first, last := last }

/-- blocks.rs 49-72 `marshal`. -/
def FreeSegments.marshal (s : FreeSegments) : Wr Nat := Wr.counted do
  let vers : Int := if kStartBigFile < s.last then 1 + 1000 else 1
  Wr.i16 vers
  Wr.seek (1000 < vers) s.first
  Wr.seek (1000 < vers) s.last

/-! ### File header, riofs/file.rs -/

/-- file.rs 37-51 `RootFileHeader`. -/
structure FileHeader where
  version : Int := 0
  begin_ : Int := 0
  end_ : Int := 0
  seekFree : Int := 0
  nBytesFree : Int := 0
  nFree : Int := 0
  nBytesName : Int := 0
  units : Nat := 0
  compression : Int := 0
  seekInfo : Int := 0
  nBytesInfo : Int := 0
  uuid : List Byte := List.replicate 16 0
  deriving DecidableEq, Repr

/-- file.rs 32 `ROOT_MAGIC`. -/
def rootMagic : List Byte := b! "root"

/-- file.rs 917-919 `is_big_file`. -/
def FileHeader.isBig (h : FileHeader) : Bool := kStartBigFile < h.end_

/-- file.rs 482-490: whether the 8-byte layout is used. -/
def FileHeader.wide (h : FileHeader) : Bool :=
  h.isBig || kStartBigFile < h.seekFree || kStartBigFile < h.seekInfo

/-- file.rs 482-490: the header after the `version`/`units` adjustment of `write_header`; the
adjusted version is local to the call, `units` is kept. -/
def FileHeader.adjusted (h : FileHeader) : FileHeader :=
  if h.wide then { h with units := 8 } else h

/-- file.rs 481-490: the version that is written. -/
def FileHeader.writtenVersion (h : FileHeader) : Int :=
  if h.wide then (if h.version < 1000000 then h.version + 1000000 else h.version) else h.version

/-- file.rs 492-521, the bytes of the header (`h` already adjusted). -/
def FileHeader.marshal (h : FileHeader) : Wr Nat := Wr.counted do
  let v := h.writtenVersion
  Wr.bytes rootMagic
  Wr.i32 v
  Wr.i32 h.begin_
  Wr.seek (¬ v < 1000000) h.end_
  Wr.seek (¬ v < 1000000) h.seekFree
  Wr.i32 h.nBytesFree
  Wr.i32 h.nFree
  Wr.i32 h.nBytesName
  Wr.u8 h.units
  Wr.i32 h.compression
  Wr.seek (¬ v < 1000000) h.seekInfo
  Wr.i32 h.nBytesInfo
  Wr.i16 rversUuid
  Wr.bytes h.uuid

/-- file.rs 393-441, the header part of `read_header`; `%` truncates towards zero; the comparison
with the magic is an `assert_eq!`. -/
def FileHeader.unmarshal : Rd FileHeader := do
  let magic ← Rd.take 4
  if magic ≠ rootMagic then Rd.panic
  else
    let version ← Rd.i32
    let begin_ ← Rd.i32
    let end_ ← Rd.seek (1000000 < version)
    let seekFree ← Rd.seek (1000000 < version)
    let nBytesFree ← Rd.i32
    let nFree ← Rd.i32
    let nBytesName ← Rd.i32
    let units ← Rd.u8
    let compression ← Rd.i32
    let seekInfo ← Rd.seek (1000000 < version)
    let nBytesInfo ← Rd.i32
    let _ ← Rd.u16
    let uuid ← Rd.take 16
    pure { version := version.tmod 1000000, begin_ := begin_, end_ := end_, seekFree := seekFree,
           nBytesFree := nBytesFree, nFree := nFree, nBytesName := nBytesName, units := units,
           compression := compression, seekInfo := seekInfo, nBytesInfo := nBytesInfo,
           uuid := uuid }

/-! ### Directory record, riofs/dir.rs -/

/-- dir.rs 21-58 `TDirectory` and `TDirectoryFile`; of `named` only name and title are used. -/
structure Dir where
  ctime : Nat := dateNow
  mtime : Nat := dateNow
  nBytesKeys : Int := 0
  nBytesName : Int := 0
  rvers : Int := rversDirectory
  uuid : List Byte := List.replicate 16 0
  name : Str := []
  title : Str := []
  seekDir : Int := 0
  seekParent : Int := 0
  seekKeys : Int := 0
  className : Str := []
  keys : List Key := []
  deriving DecidableEq, Repr

/-- dir.rs 375-377 `is_big_file`. -/
def Dir.isBig (d : Dir) : Bool := 1000 < d.rvers

/-- dir.rs 345-368 `record_size`. -/
def dirRecordSize (version : Int) : Int :=
  2 + 4 + 4 + 4 + 4 + (if 40000 ≤ version then 8 + 8 + 8 else 4 + 4 + 4) + 18

/-- dir.rs 380-434 `unmarshal`, on a default directory. -/
def Dir.unmarshal : Rd Dir := do
  let version ← Rd.i16
  let ctime ← Rd.datetime
  let mtime ← Rd.datetime
  let nBytesKeys ← Rd.i32
  let nBytesName ← Rd.i32
  let seekDir ← Rd.seek (1000 < version)
  let seekParent ← Rd.seek (1000 < version)
  let seekKeys ← Rd.seek (1000 < version)
  let _ ← Rd.u16
  let uuid ← Rd.take 16
  pure { ctime := ctime, mtime := mtime, nBytesKeys := nBytesKeys, nBytesName := nBytesName,
         rvers := version, uuid := uuid, seekDir := seekDir, seekParent := seekParent,
         seekKeys := seekKeys }

/-- dir.rs 436-482 `marshal`. -/
def Dir.marshal (d : Dir) : Wr Nat := Wr.counted do
  Wr.i16 d.rvers
  Wr.datetime d.ctime
  Wr.datetime d.mtime
  Wr.i32 d.nBytesKeys
  Wr.i32 d.nBytesName
  Wr.seek d.isBig d.seekDir
  Wr.seek d.isBig d.seekParent
  Wr.seek d.isBig d.seekKeys
  Wr.i16 rversUuid
  Wr.bytes d.uuid

end Verif
