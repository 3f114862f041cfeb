import Verif.Spec.RootTrees
import Verif.Spec.UserInfo
import Verif.Spec.Streamers
/-
Files as ROOT writes them: a header, the record of the top directory, the list of its keys, the free
segments, and the list of the classes of the objects in the file.
-/
namespace Verif

/-! ### Classes -/

/-- What kind of member of a class, with what only this kind has. -/
inductive MemberKind where
  | string | object | objectPointer | objectAny | basic
  | base (version : Int)
  | basicPointer (version : Int) (counter cls : Str)
  | stl (container : ESTLType) (content : Int)
  | stlString (container : ESTLType) (content : Int)
  /-- a pointer to an object that is not a `TObject` -/
  | objectAnyPointer

/-- A member of a class, or a base. -/
structure RootMember where
  addr : Nat
  kind : MemberKind
  named : TNamed
  code : Int
  size : Int := 0
  arrLen : Int := 0
  arrDim : Int := 0
  maxIdx : List Int := [0, 0, 0, 0, 0]
  typeName : Str

/-- `TStreamerElement`, version 4. -/
def RootMember.base (m : RootMember) : Wr Unit := Wr.drop <| Wr.framed 4 do
  Wr.drop m.named.marshal
  Wr.i32 m.code
  Wr.i32 m.size
  Wr.i32 m.arrLen
  Wr.i32 m.arrDim
  Wr.each Wr.i32 m.maxIdx
  Wr.string m.typeName

/-- The name of the class that describes the member. -/
def RootMember.cls (m : RootMember) : Str :=
  match m.kind with
  | .string => b! "TStreamerString"
  | .object => b! "TStreamerObject"
  | .objectPointer => b! "TStreamerObjectPointer"
  | .objectAny => b! "TStreamerObjectAny"
  | .basic => b! "TStreamerBasicType"
  | .base _ => b! "TStreamerBase"
  | .basicPointer .. => b! "TStreamerBasicPointer"
  | .stl .. => b! "TStreamerSTL"
  | .stlString .. => b! "TStreamerSTLstring"
  | .objectAnyPointer => b! "TStreamerObjectAnyPointer"

/-- `TStreamerSTL`, version 3. -/
def RootMember.container (m : RootMember) (c : ESTLType) (content : Int) : Wr Nat := Wr.framed 3 do
  m.base
  Wr.i32 c.code
  Wr.i32 content

/-- Its record. -/
def RootMember.obj (m : RootMember) : WObj :=
  { cls := m.cls, addr := m.addr,
    marshal := match m.kind with
      | .string | .object | .objectPointer | .objectAny | .basic | .objectAnyPointer => Wr.framed 2 m.base
      | .base v => Wr.framed 3 do
        m.base
        Wr.i32 v
      | .basicPointer v counter cls => Wr.framed 2 do
        m.base
        Wr.i32 v
        Wr.string counter
        Wr.string cls
      | .stl c content => m.container c content
      | .stlString c content => Wr.framed 2 (Wr.drop (m.container c content)) }

/-- The type of a code; an unsigned char that is called `bool` is a `bool`. -/
def RootMember.type (m : RootMember) : EnumT :=
  if m.code = 11 ∧ (m.typeName = b! "Bool_t" ∨ m.typeName = b! "bool") then .named .bool else EnumT.fromI32 m.code

/-- The size of a member of a basic type: that of the type, times the length of an array. -/
def RootMember.basicSize (m : RootMember) : Int :=
  match (basicKind m.code).bind basicTypeSize with
  | some n => if 0 < m.arrLen then n * m.arrLen else n
  | none => m.size

/-- The member as it should be seen. -/
def RootMember.seen (m : RootMember) : Streamer :=
  let e : StreamerElement := { named := m.named, etype := m.type, esize := m.size, arrLen := m.arrLen, arrDim := m.arrDim,
                               maxIdx := m.maxIdx, ename := m.typeName }
  match m.kind with
  | .string => .string e
  | .object => .object e
  | .objectPointer => .objectPointer e
  | .objectAny | .objectAnyPointer => .objectAny e
  | .basic => .basicType { e with esize := m.basicSize }
  | .base v => .base e v
  | .basicPointer v counter cls => .basicPointer e v counter cls
  | .stl c content => .stl e c (EnumT.fromI32 content)
  | .stlString c content => .stlString e c (EnumT.fromI32 content)

/-- Everything fits in its field. -/
structure RootMember.Fits (m : RootMember) : Prop where
  named : m.named.Fits
  code : InI 4 m.code
  size : InI 4 m.size
  arrLen : InI 4 m.arrLen
  arrDim : InI 4 m.arrDim
  five : m.maxIdx.length = 5
  maxIdx : ∀ i ∈ m.maxIdx, InI 4 i
  typeName : TextOk m.typeName

/-- A container: `multimap` and `set` are called so if anything is. -/
def containerOk (m : RootMember) (c : ESTLType) (content : Int) : Prop :=
  InI 4 content ∧ ((c = .multimap ∨ c = .set) → c.corrected m.named.name = c)

/-- What the reader can do with: in its title a `[` comes first or not at all, with no comma behind; it is not
a pointer to any object; a basic type is one. -/
structure RootMember.Ok (m : RootMember) : Prop extends m.Fits where
  title : TitleOk m.named.title
  kind : match m.kind with
    | .string | .object | .objectPointer | .objectAny => True
    | .basic => (basicKind m.code).isSome ∧ InI 4 m.basicSize
    | .base v => InI 4 v
    | .basicPointer v counter cls => InI 4 v ∧ TextOk counter ∧ TextOk cls
    | .stl c content | .stlString c content => containerOk m c content
    | .objectAnyPointer => False

/-- A class. -/
structure RootInfo where
  addr : Nat
  arrayAddr : Nat
  named : TNamed
  chksum : Nat
  clsver : Int
  members : List RootMember

def RootInfo.addrs (s : RootInfo) : List Nat := s.addr :: s.arrayAddr :: s.members.map RootMember.addr

/-- The members, a `TObjArray` of version 3. -/
def RootInfo.array (s : RootInfo) : WObj :=
  { cls := b! "TObjArray", addr := s.arrayAddr,
    marshal := Wr.framed 3 do
      Wr.drop TObject.default.marshal
      Wr.string []
      Wr.i32 s.members.length
      Wr.i32 0
      Wr.each (fun m => Wr.drop (Wr.objectAny m.obj)) s.members }

/-- `TStreamerInfo`, version 9: name, checksum, version, members. -/
def RootInfo.obj (s : RootInfo) : WObj :=
  { cls := b! "TStreamerInfo", addr := s.addr,
    marshal := Wr.framed 9 do
      Wr.drop s.named.marshal
      Wr.u32 s.chksum
      Wr.i32 s.clsver
      Wr.drop (Wr.objectAny s.array) }

def RootInfo.seen (s : RootInfo) : StreamerInfo :=
  { named := s.named, chksum := s.chksum, clsver := s.clsver, elems := s.members.map RootMember.seen }

structure RootInfo.Ok (s : RootInfo) : Prop where
  named : s.named.Fits
  chksum : InU 4 s.chksum
  clsver : InI 4 s.clsver
  members : ∀ m ∈ s.members, m.Ok
  few : s.members.length < 2 ^ 31

/-- The rules for reading old versions of classes, a list of texts. -/
structure RootRules where
  addr : Nat
  rules : List Text

def RootRules.obj (l : RootRules) : WObj :=
  { cls := b! "TList", addr := l.addr,
    marshal := TList.marshal TObject.default (some (b! "listOfRules")) (l.rules.map Text.obj) }

def RootRules.addrs (l : RootRules) : List Nat := l.addr :: l.rules.map Text.addr

/-- The classes of a file, and possibly rules. -/
structure RootInfos where
  infos : List RootInfo
  rules : Option RootRules := none

/-- The list of them, a `TList` without a name. -/
def RootInfos.write (s : RootInfos) : Wr Nat :=
  TList.marshal TObject.default (some []) (s.infos.map RootInfo.obj ++ s.rules.toList.map RootRules.obj)

def RootInfos.addrs (s : RootInfos) : List Nat := s.infos.flatMap RootInfo.addrs ++ s.rules.toList.flatMap RootRules.addrs

structure RootInfos.Ok (s : RootInfos) : Prop where
  infos : ∀ i ∈ s.infos, i.Ok
  rules : ∀ l, s.rules = some l → (∀ t ∈ l.rules, t.Ok) ∧ l.rules.length < 2 ^ 31
  few : s.infos.length + s.rules.toList.length < 2 ^ 31
  distinct : s.addrs.Nodup

/-- Its bytes behind a key of `keyLen` bytes. -/
def RootInfos.Record (s : RootInfos) (keyLen : Nat) (bs : List Byte) : Prop :=
  ∃ n w, s.write (WBuffer.new keyLen) = .ok (n, w) ∧ w.p = bs

/-! ### Files -/

/-- A key with what is behind it, compressed or not, at its place in the file. -/
structure RootRecord where
  key : Key
  date : Nat
  payload : List Byte
  block : Option Block := none

def RootRecord.bytes (r : RootRecord) : List Byte :=
  rootKey r.key r.date ++ match r.block with
    | none => r.payload
    | some z => z.bytes

structure RootRecord.In (r : RootRecord) (dec : Decoders) (img : List Byte) : Prop where
  key : r.key.InRange
  date : r.date < 2 ^ 32
  keyLen : r.key.keyLen = (rootKey r.key r.date).length
  objLen : r.key.objLen = r.payload.length
  nBytes : r.key.nBytes = r.bytes.length
  seekKey : 0 ≤ r.key.seekKey
  there : r.bytes <+: img.drop r.key.seekKey.toNat
  block : ∀ z, r.block = some z → z.Decodes dec ∧ z.plain = r.payload ∧ z.bytes.length ≠ r.payload.length

/-- A free segment, its positions of four or eight bytes. -/
structure RootSegment where
  big : Bool
  first : Int
  last : Int

def RootSegment.bytes (s : RootSegment) : List Byte :=
  let w := if s.big then 8 else 4
  bigEndian 2 (if s.big then 1001 else 1) ++ (bigEndian w s.first ++ bigEndian w s.last)

/-- A file. -/
structure RootFile where
  /-- are the positions in the header of eight bytes? -/
  big : Bool
  header : FileHeader
  /-- the key of the top directory, its date -/
  top : Key
  topDate : Nat
  /-- the name and the title of the file, once more -/
  names : List Byte
  /-- the top directory, with its dates as stored -/
  dir : Dir
  keyList : RootRecord
  keys : List (Key × Nat)
  free : RootRecord
  segments : List RootSegment
  info : RootRecord
  infos : RootInfos

/-- The header of the file: the version is larger by a million if positions are of eight bytes. -/
def RootFile.headerBytes (f : RootFile) : List Byte :=
  let w := if f.big then 8 else 4
  b! "root" ++ (bigEndian 4 (if f.big then f.header.version + 1000000 else f.header.version) ++
    (bigEndian 4 f.header.begin_ ++ (bigEndian w f.header.end_ ++ (bigEndian w f.header.seekFree ++
    (bigEndian 4 f.header.nBytesFree ++ (bigEndian 4 f.header.nFree ++ (bigEndian 4 f.header.nBytesName ++
    (beBytes 1 f.header.units ++ (bigEndian 4 f.header.compression ++ (bigEndian w f.header.seekInfo ++
    (bigEndian 4 f.header.nBytesInfo ++ (bigEndian 2 1 ++ f.header.uuid))))))))))))

/-- The record of the directory; positions are of eight bytes if its version is above 1000. -/
def RootFile.dirBytes (f : RootFile) : List Byte :=
  let w := if 1000 < f.dir.rvers then 8 else 4
  bigEndian 2 f.dir.rvers ++ (beBytes 4 f.dir.ctime ++ (beBytes 4 f.dir.mtime ++ (bigEndian 4 f.dir.nBytesKeys ++
    (bigEndian 4 f.dir.nBytesName ++ (bigEndian w f.dir.seekDir ++ (bigEndian w f.dir.seekParent ++
    (bigEndian w f.dir.seekKeys ++ (bigEndian 2 1 ++ f.dir.uuid))))))))

/-- The room for the record of the directory: enough for positions of eight bytes since version 4. -/
def RootFile.dirRoom (f : RootFile) : Int := if 40000 ≤ f.header.version then 60 else 48

/-- Numbers fit in their fields, and sizes and positions are those of what they are about. -/
structure RootFile.Ok (f : RootFile) : Prop where
  version : 0 < f.header.version ∧ f.header.version < 1000000
  begin_ : 0 ≤ f.header.begin_ ∧ InI 4 f.header.begin_
  end_ : InSeek f.big f.header.end_
  seekFree : InSeek f.big f.header.seekFree
  nBytesFree : InI 4 f.header.nBytesFree
  nFree : InI 4 f.header.nFree
  units : f.header.units < 256
  compression : InI 4 f.header.compression
  seekInfo : InSeek f.big f.header.seekInfo
  nBytesInfo : InI 4 f.header.nBytesInfo
  uuid : f.header.uuid.length = 16
  top : f.top.InRange
  topDate : f.topDate < 2 ^ 32
  dir : f.dir.InRange
  ctime : f.dir.ctime < 2 ^ 32
  mtime : f.dir.mtime < 2 ^ 32
  dirRoom : (f.dirBytes.length : Int) ≤ f.dirRoom
  nBytesName : f.header.nBytesName = (rootKey f.top f.topDate).length + f.names.length
  sameName : f.dir.nBytesName = f.header.nBytesName
  nameFits : InI 4 f.header.nBytesName
  room : f.header.begin_ + f.header.nBytesName + f.dirRoom ≤ f.header.end_
  seekKeys : f.dir.seekKeys = f.keyList.key.seekKey ∧ 0 < f.dir.seekKeys
  nBytesKeys : f.dir.nBytesKeys = f.keyList.key.nBytes
  listed : f.keyList.payload = bigEndian 4 f.keys.length ++ f.keys.flatMap fun k => rootKey k.1 k.2
  listPlain : f.keyList.block = none
  keys : ∀ k ∈ f.keys, k.1.InRange ∧ k.2 < 2 ^ 32
  few : f.keys.length < 2 ^ 31
  freeAt : f.header.seekFree = f.free.key.seekKey ∧ 0 < f.header.seekFree
  freeBytes : f.header.nBytesFree = f.free.key.nBytes
  segments : f.free.payload = f.segments.flatMap RootSegment.bytes
  segmentsFit : ∀ s ∈ f.segments, InSeek s.big s.first ∧ InSeek s.big s.last
  infoAt : f.header.seekInfo = f.info.key.seekKey ∧ 0 < f.header.seekInfo ∧ f.header.seekInfo < f.header.end_
  infoBytes : f.header.nBytesInfo = f.info.key.nBytes
  infoClass : f.info.key.cls = b! "TList"
  infos : f.infos.Record f.info.key.keyLen.toNat f.info.payload
  infosFit : f.info.key.keyLen.toNat + f.info.payload.length < 2 ^ 30

/-- The file is these bytes: header, directory, and records are at their places, and it is as long as its header
says, at least. -/
structure RootFile.In (f : RootFile) (dec : Decoders) (img : List Byte) : Prop where
  header : f.headerBytes <+: img
  length : f.header.end_ ≤ img.length
  longer : 76 ≤ img.length
  top : rootKey f.top f.topDate ++ (f.names ++ f.dirBytes) <+: img.drop f.header.begin_.toNat
  keyList : f.keyList.In dec img
  free : f.free.In dec img
  info : f.info.In dec img

/-- A key as it should be listed: a directory is shown with the name of the class it has now. -/
def seenKey (k : Key × Nat) : Key :=
  { k.1 with datetime := k.2, left := 0, buffer := []
             cls := if k.1.cls = b! "TDirectory" then b! "TDirectoryFile" else k.1.cls }

/-- The file as it should be seen, the classes last to first. -/
def RootFile.seen (f : RootFile) (img : List Byte) : FileR :=
  { header := f.header
    spans := f.segments.map fun s => { first := s.first, last := s.last }
    sinfos := (f.infos.infos.map RootInfo.seen).reverse
    dir := { f.dir with className := f.top.cls, name := f.top.name, title := f.top.title, keys := f.keys.map seenKey }
    img := img }

/-- A record of the file behind a key of its list; other keys with the name have lower cycles. -/
structure RootFile.Keeps (f : RootFile) (r : RootRecord) : Prop where
  key : (r.key, r.date) ∈ f.keys
  newest : ∀ k ∈ f.keys, k.1.name = r.key.name → k = (r.key, r.date) ∨ k.1.cycle < r.key.cycle
  name : (59 : Byte) ∉ r.key.name

/-- The path is not too long for the reader. -/
def RootFile.ShortName (f : RootFile) : Prop := 10 ≤ f.header.nBytesName ∧ f.header.nBytesName ≤ 1000

end Verif
