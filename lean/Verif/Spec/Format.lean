import Verif.Model.Dictionary
/-
How ROOT writes objects, as pure functions from what is written to bytes.  Two layers: the rules of `TBufferFile`
(byte counts, versions, strings, pointers to objects and the numbering of objects and classes), and the rule that
the members of an object follow the description of its class (its `TStreamerInfo`).  Nothing here refers to the
writer.
-/
namespace Verif

/-- Where the objects (by identity) and the classes (by name) of a record have been written: the position counted
from the beginning of the record, plus 2. -/
structure Marks where
  objects : Nat → Option Nat
  classes : Str → Option Nat

/-- At the beginning of a record. -/
def Marks.empty : Marks := { objects := fun _ => none, classes := fun _ => none }

/-- The object `id` is at `p`. -/
def Marks.object (m : Marks) (id p : Nat) : Marks :=
  { m with objects := fun a => if a = id then some (p + 2) else m.objects a }

/-- The class `cls` is at `p`. -/
def Marks.cls (m : Marks) (cls : Str) (p : Nat) : Marks :=
  { m with classes := fun s => if s = cls then some (p + 2) else m.classes s }

/-- A piece of a record: its bytes at a position, given what has been written before; `none` when there are no
such bytes (a member that does not have the type of its description). -/
def Part := Nat → Marks → Option (List Byte × Marks)

namespace Part

/-- Given bytes. -/
def raw (bs : List Byte) : Part := fun _ m => some (bs, m)

/-- One piece after another. -/
def seq : List Part → Part
  | [] => raw []
  | p :: ps => fun pos m => do
    let (a, m1) ← p pos m
    let (b, m2) ← seq ps (pos + a.length) m1
    some (a ++ b, m2)

/-- There are no such bytes. -/
def impossible : Part := fun _ _ => none

/-- A number of `n` bytes, most significant first, negative numbers in two's complement. -/
def int (n : Nat) (v : Int) : Part := raw (beBytes n (v % 256 ^ n).toNat)

/-- A string: its length in one byte, or 255 and the length in four bytes, then its bytes. -/
def str (s : Str) : Part :=
  raw ((if s.length < 255 then beBytes 1 s.length else beBytes 1 255 ++ beBytes 4 s.length) ++ s)

/-- An object with its version: the number of bytes that follow, marked by bit 30, the version, the members. -/
def record (vers : Int) (body : Part) : Part := fun pos m => do
  let (bs, m') ← body (pos + 6) m
  some (beBytes 4 (2 ^ 30 + (2 + bs.length)) ++ beBytes 2 (vers % 256 ^ 2).toNat ++ bs, m')

/-- A pointer to an object: the number of bytes that follow, marked by bit 30, and
* where the object is, when it has been written before (ROOT leaves out the count in this case and reads both forms);
* otherwise where its class is, marked by bit 31, when an object of the class has been written before, and the
  object;
* otherwise `0xFFFFFFFF`, the name of the class ending with a zero, and the object.
The class is counted from its mark, the object from the byte count. -/
def pointer (id : Nat) (cls : Str) (body : Part) : Part := fun pos m =>
  match m.objects id with
  | some p => some (beBytes 4 (2 ^ 30 + 4) ++ beBytes 4 p, m)
  | none =>
    match m.classes cls with
    | some p => do
      let (bs, m') ← body (pos + 8) (m.object id pos)
      some (beBytes 4 (2 ^ 30 + (4 + bs.length)) ++ beBytes 4 (2 ^ 31 + p) ++ bs, m')
    | none => do
      let (bs, m') ← body (pos + 8 + cls.length + 1) ((m.cls cls (pos + 4)).object id pos)
      some (beBytes 4 (2 ^ 30 + (4 + cls.length + 1 + bs.length)) ++ beBytes 4 0xFFFFFFFF ++ cls ++ [0] ++ bs, m')

/-- A pointer to nothing. -/
def null : Part := raw [0, 0, 0, 0]

end Part

/-! ### Classes with their own rules -/

/-- `TObject`: version 1 without byte count, identifier, bits; when bit 4 of the bits is set the identifier has 24 bits
and the number of the process follows. -/
def TObject.part (o : TObject) : Part :=
  if o.bits.testBit 4 then .seq [.int 2 1, .int 4 (o.id % 2 ^ 24 : Nat), .int 4 o.bits, .int 2 0]
  else .seq [.int 2 1, .int 4 o.id, .int 4 o.bits]

/-- `TObjArray`, version 3: an unnamed collection that starts at 0. -/
def arrayPart (items : List Part) : Part :=
  .record 3 (.seq ([TObject.default.part, .str [], .int 4 items.length, .int 4 0] ++ items))

/-- `TList`, version 5: an unnamed list, each object with its option (empty). -/
def listPart (items : List Part) : Part :=
  .record 5 (.seq ([TObject.default.part, .str [], .int 4 items.length] ++ items.map fun p => .seq [p, .str []]))

/-! ### Members after the description of the class -/

/-- What the description of a member says about its bytes. -/
inductive Layout where
  /-- a number of so many bytes -/
  | number (size : Nat)
  /-- so many numbers -/
  | numbers (size count : Nat)
  /-- a string -/
  | text
  /-- as many numbers as another member says -/
  | table (size : Nat) (count : Str)
  /-- a base class or an object -/
  | inside
  /-- a pointer to an object -/
  | pointer
  /-- anything else -/
  | unknown
  deriving DecidableEq, Repr

/-- ROOT's codes of the fundamental types (`TVirtualStreamerInfo::EReadWrite`) and their sizes. -/
def codeSize : Int → Option Nat
  | 1 | 11 | 18 => some 1
  | 2 | 12 => some 2
  | 3 | 5 | 6 | 13 | 15 => some 4
  | 4 | 8 | 14 | 16 | 17 => some 8
  | _ => none

/-- The shape of a member.  The code of an array is 20 more than that of its items, the code of a pointer to
numbers 40 more. -/
def Streamer.shape : Streamer → Layout
  | .basicType e =>
    match codeSize e.etype.toI32 with
    | some n => .number n
    | none =>
      match codeSize (e.etype.toI32 - 20) with
      | some n => .numbers n (e.esize.toNat / n)
      | none => .unknown
  | .basicPointer e _ count _ =>
    match codeSize (e.etype.toI32 - 40) with
    | some n => .table n count
    | none => .unknown
  | .string _ => .text
  | .base .. | .object _ | .objectAny _ => .inside
  | .objectPointer _ => .pointer
  | .stl .. | .stlString .. => .unknown

/-- The value of a member: floating point numbers are bit patterns, booleans 0 or 1. -/
inductive Member where
  | int (v : Int)
  | ints (vs : List Int)
  | text (s : Str)
  | inside (p : Part)
  | pointer (p : Part)

/-- The bytes of a member of a given shape; `others` are all members by name.  Numbers behind a pointer come after a
byte that says whether there are any. -/
def Member.part (others : List (Str × Member)) : Layout → Member → Part
  | .number n, .int v => .int n v
  | .numbers n count, .ints vs => if vs.length = count then .seq (vs.map (.int n)) else .impossible
  | .text, .text s => .str s
  | .table n count, .ints vs =>
    match others.lookup count with
    | some (.int c) =>
      if c = vs.length then
        if vs = [] then .raw [0] else .seq (.raw [1] :: vs.map (.int n))
      else .impossible
    | _ => .impossible
  | .inside, .inside p => p
  | .pointer, .pointer p => p
  | _, _ => .impossible

/-- The members of a class in the order of its description, which must be those of `members`. -/
def membersPart (all : List (Str × Member)) : List (Str × Layout) → List (Str × Member) → List Part
  | [], [] => []
  | (n, s) :: ss, (n', v) :: vs =>
    (if n = n' then v.part all s else .impossible) :: membersPart all ss vs
  | _, _ => [.impossible]

/-- An object whose class has the description `info`. -/
def StreamerInfo.part (info : StreamerInfo) (members : List (Str × Member)) : Part :=
  .record info.clsver
    (.seq (membersPart members (info.elems.map fun s => (s.name, s.shape)) members))

/-- An object of a class of the bundled table of descriptions (the descriptions that are put in the files). -/
def ClassRow.part (row : ClassRow) (members : List (Str × Member)) : Part :=
  match row.info 0 with
  | .ok info => info.part members
  | .error _ => .impossible

/-! ### The classes of a tree -/

/-- A truth value. -/
def Member.bool (b : Bool) : Member := .int (if b then 1 else 0)

/-- `TNamed`. -/
def TNamed.part (n : TNamed) : Part :=
  rowTNamed.part [(b! "TObject", .inside n.obj.part), (b! "fName", .text n.name), (b! "fTitle", .text n.title)]

/-- `TAttLine`. -/
def AttLine.part (a : AttLine) : Part :=
  rowTAttLine.part [(b! "fLineColor", .int a.color.toI16), (b! "fLineStyle", .int a.style),
    (b! "fLineWidth", .int a.width)]

/-- `TAttFill`. -/
def AttFill.part (a : AttFill) : Part :=
  rowTAttFill.part [(b! "fFillColor", .int a.color.toI16), (b! "fFillStyle", .int a.style)]

/-- `TAttMarker`. -/
def AttMarker.part (a : AttMarker) : Part :=
  rowTAttMarker.part [(b! "fMarkerColor", .int a.color.toI16), (b! "fMarkerStyle", .int a.style),
    (b! "fMarkerSize", .int a.width)]

/-- `ROOT::TIOFeatures`. -/
def featuresPart (bits : Nat) : Part := rowROOTTIOFeatures.part [(b! "fIOBits", .int bits)]

/-- `TLeaf`, not counted by another leaf. -/
def TLeaf.part (t : TLeaf) : Part :=
  rowTLeaf.part [(b! "TNamed", .inside t.named.part), (b! "fLen", .int t.len), (b! "fLenType", .int t.etype),
    (b! "fOffset", .int t.offset), (b! "fIsRange", .bool t.hasRange), (b! "fIsUnsigned", .bool t.unsigned),
    (b! "fLeafCount", .pointer .null)]

/-- The classes of leaves with a minimum and a maximum. -/
def LeafKind.row : LeafKind → ClassRow
  | .I => rowTLeafI
  | .B => rowTLeafB
  | .S => rowTLeafS
  | .L => rowTLeafL
  | .F => rowTLeafF
  | .D => rowTLeafD
  | .O => rowTLeafO
  | .C => rowTLeafC

/-- A leaf. -/
def Leaf.part : Leaf → Part
  | .base t => t.part
  | .element _ t id ltype =>
    rowTLeafElement.part [(b! "TLeaf", .inside t.part), (b! "fID", .int id), (b! "fType", .int ltype)]
  | .var k _ t min max =>
    k.row.part [(b! "TLeaf", .inside t.part), (b! "fMinimum", .int min), (b! "fMaximum", .int max)]

/-- A leaf of a branch, by identity. -/
def leafPointer (p : Leaf × Nat) : Part := .pointer p.2 p.1.cls p.1.part

/-- A table with zeros up to `n` slots. -/
def padTo (n : Nat) (l : List Int) : List Int := l ++ List.replicate (n - l.length) 0

/-- The members of a `TBranch` with `nb` baskets, all of them outside of the record, without sub-branches: the tables
have one slot more than baskets, at least ten. -/
def BranchData.members (d : BranchData) (nb : Nat) (leafAddrs : List Nat) : List (Str × Member) :=
  let slots := Nat.max 10 (nb + 1)
  [(b! "TNamed", .inside d.named.part), (b! "TAttFill", .inside d.attfill.part),
    (b! "fCompress", .int d.compress), (b! "fBasketSize", .int d.basketSize),
    (b! "fEntryOffsetLen", .int d.entryOffsetLen), (b! "fWriteBasket", .int nb),
    (b! "fEntryNumber", .int d.entryNumber), (b! "fIOFeatures", .inside (featuresPart d.iobits)),
    (b! "fOffset", .int d.offset), (b! "fMaxBaskets", .int slots), (b! "fSplitLevel", .int d.splitLevel),
    (b! "fEntries", .int d.entries), (b! "fFirstEntry", .int d.firstEntry), (b! "fTotBytes", .int d.totBytes),
    (b! "fZipBytes", .int d.zipBytes), (b! "fBranches", .inside (arrayPart [])),
    (b! "fLeaves", .inside (arrayPart ((d.leaves.zip leafAddrs).map leafPointer))),
    (b! "fBaskets", .inside (arrayPart [])),
    (b! "fBasketBytes", .ints (padTo slots (d.basketBytes.take nb))),
    (b! "fBasketEntry", .ints (padTo slots (d.basketEntry.take (nb + 1)))),
    (b! "fBasketSeek", .ints (padTo slots (d.basketSeek.take nb))), (b! "fFileName", .text d.fname)]

/-- `TBranch`. -/
def BranchData.part (d : BranchData) (nb : Nat) (leafAddrs : List Nat) : Part :=
  rowTBranch.part (d.members nb leafAddrs)

/-- A branch: a `TBranch`, or a `TBranchElement` that is not counted by another one. -/
def Branch.part (b : Branch) (nb : Nat) (leafAddrs : List Nat) : Part :=
  match b.elem with
  | none => b.data.part nb leafAddrs
  | some e =>
    rowTBranchElement.part [(b! "TBranch", .inside (b.data.part nb leafAddrs)), (b! "fClassName", .text e.className),
      (b! "fParentName", .text e.parent), (b! "fClonesName", .text e.clones), (b! "fCheckSum", .int e.chksum),
      (b! "fClassVersion", .int e.clsver), (b! "fID", .int e.id), (b! "fType", .int e.btype),
      (b! "fStreamerType", .int e.stype), (b! "fMaximum", .int e.max), (b! "fBranchCount", .pointer .null),
      (b! "fBranchCount2", .pointer .null)]

/-- A branch of a tree, by identity. -/
def PlacedBranch.pointer (p : PlacedBranch × Nat) : Part :=
  .pointer p.1.addr p.1.branch.cls (p.1.branch.part p.2 p.1.leafAddrs)

/-- The leaves of a branch of a tree, by identity. -/
def PlacedBranch.leaves (b : PlacedBranch) : List (Leaf × Nat) := b.branch.data.leaves.zip b.leafAddrs

/-- The members of a `TTree` without clusters, aliases, indices, friends, user information: the branches, each with its number of
baskets, then all leaves again. -/
def TreeData.members (t : TreeData) (bs : List (PlacedBranch × Nat)) : List (Str × Member) :=
  [(b! "TNamed", .inside t.named.part), (b! "TAttLine", .inside t.attline.part),
    (b! "TAttFill", .inside t.attfill.part), (b! "TAttMarker", .inside t.attmarker.part),
    (b! "fEntries", .int t.entries), (b! "fTotBytes", .int t.totBytes), (b! "fZipBytes", .int t.zipBytes),
    (b! "fSavedBytes", .int t.savedBytes), (b! "fFlushedBytes", .int t.flushedBytes), (b! "fWeight", .int t.weight),
    (b! "fTimerInterval", .int t.timerInterval), (b! "fScanField", .int t.scanField), (b! "fUpdate", .int t.update),
    (b! "fDefaultEntryOffsetLen", .int t.defaultEntryOffsetLen), (b! "fNClusterRange", .int 0),
    (b! "fMaxEntries", .int t.maxEntries), (b! "fMaxEntryLoop", .int t.maxEntryLoop),
    (b! "fMaxVirtualSize", .int t.maxVirtualSize), (b! "fAutoSave", .int t.autoSave),
    (b! "fAutoFlush", .int t.autoFlush), (b! "fEstimate", .int t.estimate), (b! "fClusterRangeEnd", .ints []),
    (b! "fClusterSize", .ints []), (b! "fIOFeatures", .inside (featuresPart t.iobits)),
    (b! "fBranches", .inside (arrayPart (bs.map PlacedBranch.pointer))),
    (b! "fLeaves", .inside (arrayPart ((bs.flatMap fun p => p.1.leaves).map leafPointer))),
    (b! "fAliases", .pointer .null), (b! "fIndexValues", .inside (.int 4 0)), (b! "fIndex", .inside (.int 4 0)),
    (b! "fTreeIndex", .pointer .null), (b! "fFriends", .pointer .null), (b! "fUserInfo", .pointer .null),
    (b! "fBranchRef", .pointer .null)]

/-- `TTree`. -/
def TreeData.part (t : TreeData) (bs : List (PlacedBranch × Nat)) : Part := rowTTree.part (t.members bs)

/-! ### The descriptions of the classes -/

/-- `TStreamerElement`. -/
def StreamerElement.part (e : StreamerElement) : Part :=
  rowTStreamerElement.part [(b! "TNamed", .inside e.named.part), (b! "fType", .int e.etype.toI32),
    (b! "fSize", .int e.esize), (b! "fArrayLength", .int e.arrLen), (b! "fArrayDim", .int e.arrDim),
    (b! "fMaxIndex", .ints e.maxIdx), (b! "fTypeName", .text e.ename)]

/-- A member of a class, described by one of the classes derived from `TStreamerElement`. -/
def Streamer.part : Streamer → Part
  | .string e => rowTStreamerString.part [(b! "TStreamerElement", .inside e.part)]
  | .basicType e => rowTStreamerBasicType.part [(b! "TStreamerElement", .inside e.part)]
  | .object e => rowTStreamerObject.part [(b! "TStreamerElement", .inside e.part)]
  | .objectPointer e => rowTStreamerObjectPointer.part [(b! "TStreamerElement", .inside e.part)]
  | .objectAny e => rowTStreamerObjectAny.part [(b! "TStreamerElement", .inside e.part)]
  | .base e vbase =>
    rowTStreamerBase.part [(b! "TStreamerElement", .inside e.part), (b! "fBaseVersion", .int vbase)]
  | .basicPointer e cvers cname ccls =>
    rowTStreamerBasicPointer.part [(b! "TStreamerElement", .inside e.part), (b! "fCountVersion", .int cvers),
      (b! "fCountName", .text cname), (b! "fCountClass", .text ccls)]
  | .stl e vtype ctype =>
    rowTStreamerSTL.part [(b! "TStreamerElement", .inside e.part), (b! "fSTLtype", .int vtype.code),
      (b! "fCtype", .int ctype.toI32)]
  | .stlString e vtype ctype =>
    rowTStreamerSTLstring.part [(b! "TStreamerSTL", .inside (rowTStreamerSTL.part
      [(b! "TStreamerElement", .inside e.part), (b! "fSTLtype", .int vtype.code), (b! "fCtype", .int ctype.toI32)]))]

/-- A description in which the types `TObject` and `TNamed` of bases (66 and 67) are those of other bases (0). -/
def StreamerElement.plain (e : StreamerElement) : StreamerElement :=
  if e.etype = .named .tNamed ∨ e.etype = .named .tObject then { e with etype := .named .base } else e

/-- See `StreamerElement.plain`. -/
def Streamer.plain : Streamer → Streamer
  | .string e => .string e.plain
  | .stlString e v c => .stlString e.plain v c
  | .basicType e => .basicType e.plain
  | .basicPointer e v n c => .basicPointer e.plain v n c
  | .objectAny e => .objectAny e.plain
  | .stl e v c => .stl e.plain v c
  | .base e v => .base e.plain v
  | .object e => .object e.plain
  | .objectPointer e => .objectPointer e.plain

/-- See `StreamerElement.plain`. -/
def StreamerInfo.plain (s : StreamerInfo) : StreamerInfo := { s with elems := s.elems.map Streamer.plain }

/-- `TStreamerInfo`, version 9, has its own rule: name and title, checksum, version of the class, the members. -/
def StreamerInfo.recordPart (s : StreamerInfo) : Part :=
  .record 9 (.seq [s.named.part, .int 4 s.chksum, .int 4 s.clsver,
    .pointer s.id (b! "TObjArray") (arrayPart (s.elems.map fun e => .pointer e.element.id e.cls e.part))])

/-- The list of the descriptions of the classes, each with its identity. -/
def infosPart (l : List (StreamerInfo × Nat)) : Part :=
  listPart (l.map fun p => .pointer p.2 (b! "TStreamerInfo") p.1.recordPart)

end Verif
