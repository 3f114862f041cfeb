import Verif.Model.TreeWrite
/-
The dictionary bundled with the library: rdict/streamers/streamers_db_generated.rs (the table, all of
its 85 classes), rdict/streamers/streamers_db_gen_helpers.rs, rdict/streamers/db.rs.  The titles
`fTitle` of the table are not used by the code (every element gets the empty title).
-/
namespace Verif

/-- streamers_db_gen_helpers.rs 8-23 `ElementStrings`, the fields that are used. -/
structure ElementRow where
  name : Str
  size : Int
  type : Int
  typeName : Str
  base : Option Int := none
  countName : Option Str := none
  countClass : Option Str := none
  countVersion : Option Int := none
  stl : Option Int := none

/-- streamers_db_gen_helpers.rs 154-163 `ClassStrings`, with the elements that follow. -/
structure ClassRow where
  name : Str
  chksum : Nat
  version : Int
  elems : List ElementRow := []

/-- The codes of streamers_db_gen_helpers.rs 36-62 and 125-129 (`StreamerBasicType`). -/
def EnumT.isBasic : EnumT → Bool
  | .named n => [EnumNamed.long64, .int, .long, .double, .counter, .short, .float, .float16, .double32,
      .uInt, .bits, .uShort, .uChar, .char, .charStar, .bool].contains n
  | .int i => i = 23 || i = 31

/-- The codes of streamers_db_gen_helpers.rs 72-84 and 131-142 (`StreamerBasicPointer`). -/
def EnumT.isPointer : EnumT → Bool
  | .named n => n = .offsetP16
  | .int i => (41 ≤ i && i ≤ 48) || i = 51 || i = 53

/-- streamers_db_gen_helpers.rs 34-146 `build_streamer`, on the element made in
streamers_db_generated.rs (`StreamerElement::new`, empty title, `ename`).  `unwrap` of a missing field
and unknown types abort. -/
def ElementRow.streamer (r : ElementRow) (id : Nat) : Res Streamer :=
  let et := EnumT.fromI32 r.type
  let e : StreamerElement :=
    { named := { name := r.name }, etype := et, esize := r.size, ename := r.typeName, id := id }
  if et.isBasic then .ok (.basicType e)
  else if et = .named .tNamed ∨ et = .named .base ∨ et = .named .tObject then
    match r.base with
    | some v => .ok (.base e v)
    | none => .error .panic
  else if et.isPointer then
    match r.countVersion, r.countName, r.countClass with
    | some v, some n, some c => .ok (.basicPointer e v n c)
    | _, _, _ => .error .panic
  else if et = .named .any then .ok (.objectAny e)
  else if et = .named .object then .ok (.object e)
  else if et = .named .objectP ∨ et = .named .objectp then .ok (.objectPointer e)
  else if et = .named .tString then .ok (.string e)
  else if et = .named .stl then
    match r.stl with
    | some c =>
      match ESTLType.fromI32 c with
      | some vt => .ok (.stl { e with etype := .named .streamer } vt (.named .object))
      | none => .error .panic
    | none => .error .panic
  else .error .panic

/-- The elements of a class, numbered from `n` (`id_elements`). -/
def ClassRow.streamers : Nat → List ElementRow → Res (List Streamer)
  | _, [] => .ok []
  | n, r :: rs => do
    let s ← r.streamer n
    let ss ← ClassRow.streamers (n + 1) rs
    pure (s :: ss)

/-- One class of `populate_db`: `StreamerInfo::new(name, checksum, rvers)` (a negative version becomes
1, streamers_db_gen_helpers.rs 166-170), its elements, `id`. -/
def ClassRow.info (n : Nat) (r : ClassRow) : Res StreamerInfo := do
  let es ← ClassRow.streamers n r.elems
  pure { named := { name := r.name }, chksum := r.chksum,
         clsver := if r.version < 0 then 1 else r.version, elems := es, id := n + r.elems.length }

/-- `populate_db`: the records in the order in which they are inserted. -/
def populate : Nat → List ClassRow → Res (List StreamerInfo)
  | _, [] => .ok []
  | n, r :: rs => do
    let s ← r.info n
    let ss ← populate (n + r.elems.length) rs
    pure (s :: ss)

/-! ### The table -/

/-- streamers_db_generated.rs 10-375. -/
def rowTAttAxis : ClassRow where
  name := b! "TAttAxis"
  chksum := 1550843710
  version := 4
  elems :=
    [{ name := b! "fNdivisions", size := 4, type := 3, typeName := b! "int" },
     { name := b! "fAxisColor", size := 2, type := 2, typeName := b! "short" },
     { name := b! "fLabelColor", size := 2, type := 2, typeName := b! "short" },
     { name := b! "fLabelFont", size := 2, type := 2, typeName := b! "short" },
     { name := b! "fLabelOffset", size := 4, type := 5, typeName := b! "float" },
     { name := b! "fLabelSize", size := 4, type := 5, typeName := b! "float" },
     { name := b! "fTickLength", size := 4, type := 5, typeName := b! "float" },
     { name := b! "fTitleOffset", size := 4, type := 5, typeName := b! "float" },
     { name := b! "fTitleSize", size := 4, type := 5, typeName := b! "float" },
     { name := b! "fTitleColor", size := 2, type := 2, typeName := b! "short" },
     { name := b! "fTitleFont", size := 2, type := 2, typeName := b! "short" }]

/-- streamers_db_generated.rs 376-389. -/
def rowTAttBBox2D : ClassRow where
  name := b! "TAttBBox2D"
  chksum := 2443772
  version := 0

/-- streamers_db_generated.rs 390-467. -/
def rowTAttFill : ClassRow where
  name := b! "TAttFill"
  chksum := 4292422290
  version := 2
  elems :=
    [{ name := b! "fFillColor", size := 2, type := 2, typeName := b! "short" },
     { name := b! "fFillStyle", size := 2, type := 2, typeName := b! "short" }]

/-- streamers_db_generated.rs 468-577. -/
def rowTAttLine : ClassRow where
  name := b! "TAttLine"
  chksum := 2483504457
  version := 2
  elems :=
    [{ name := b! "fLineColor", size := 2, type := 2, typeName := b! "short" },
     { name := b! "fLineStyle", size := 2, type := 2, typeName := b! "short" },
     { name := b! "fLineWidth", size := 2, type := 2, typeName := b! "short" }]

/-- streamers_db_generated.rs 578-687. -/
def rowTAttMarker : ClassRow where
  name := b! "TAttMarker"
  chksum := 689802220
  version := 2
  elems :=
    [{ name := b! "fMarkerColor", size := 2, type := 2, typeName := b! "short" },
     { name := b! "fMarkerStyle", size := 2, type := 2, typeName := b! "short" },
     { name := b! "fMarkerSize", size := 4, type := 5, typeName := b! "float" }]

/-- streamers_db_generated.rs 688-1245. -/
def rowTAttPad : ClassRow where
  name := b! "TAttPad"
  chksum := 2803232785
  version := 4
  elems :=
    [{ name := b! "fLeftMargin", size := 4, type := 5, typeName := b! "float" },
     { name := b! "fRightMargin", size := 4, type := 5, typeName := b! "float" },
     { name := b! "fBottomMargin", size := 4, type := 5, typeName := b! "float" },
     { name := b! "fTopMargin", size := 4, type := 5, typeName := b! "float" },
     { name := b! "fXfile", size := 4, type := 5, typeName := b! "float" },
     { name := b! "fYfile", size := 4, type := 5, typeName := b! "float" },
     { name := b! "fAfile", size := 4, type := 5, typeName := b! "float" },
     { name := b! "fXstat", size := 4, type := 5, typeName := b! "float" },
     { name := b! "fYstat", size := 4, type := 5, typeName := b! "float" },
     { name := b! "fAstat", size := 4, type := 5, typeName := b! "float" },
     { name := b! "fFrameFillColor", size := 2, type := 2, typeName := b! "short" },
     { name := b! "fFrameLineColor", size := 2, type := 2, typeName := b! "short" },
     { name := b! "fFrameFillStyle", size := 2, type := 2, typeName := b! "short" },
     { name := b! "fFrameLineStyle", size := 2, type := 2, typeName := b! "short" },
     { name := b! "fFrameLineWidth", size := 2, type := 2, typeName := b! "short" },
     { name := b! "fFrameBorderSize", size := 2, type := 2, typeName := b! "short" },
     { name := b! "fFrameBorderMode", size := 4, type := 3, typeName := b! "int" }]

/-- streamers_db_generated.rs 1246-1291. -/
def rowTDatime : ClassRow where
  name := b! "TDatime"
  chksum := 3024515566
  version := 1
  elems :=
    [{ name := b! "fDatime", size := 4, type := 13, typeName := b! "unsigned int" }]

/-- streamers_db_generated.rs 1292-1402. -/
def rowTNamed : ClassRow where
  name := b! "TNamed"
  chksum := 3753331260
  version := 1
  elems :=
    [{ name := b! "TObject", size := 0, type := 66, typeName := b! "BASE", base := some 1 },
     { name := b! "fName", size := 24, type := 65, typeName := b! "TString" },
     { name := b! "fTitle", size := 24, type := 65, typeName := b! "TString" }]

/-- streamers_db_generated.rs 1403-1480. -/
def rowTObject : ClassRow where
  name := b! "TObject"
  chksum := 2417737773
  version := 1
  elems :=
    [{ name := b! "fUniqueID", size := 4, type := 13, typeName := b! "unsigned int" },
     { name := b! "fBits", size := 4, type := 15, typeName := b! "unsigned int" }]

/-- streamers_db_generated.rs 1481-1559. -/
def rowTObjString : ClassRow where
  name := b! "TObjString"
  chksum := 2626570240
  version := 1
  elems :=
    [{ name := b! "TObject", size := 0, type := 66, typeName := b! "BASE", base := some 1 },
     { name := b! "fString", size := 24, type := 65, typeName := b! "TString" }]

/-- streamers_db_generated.rs 1560-1606. -/
def rowTProcessID : ClassRow where
  name := b! "TProcessID"
  chksum := 729740665
  version := 1
  elems :=
    [{ name := b! "TNamed", size := 0, type := 67, typeName := b! "BASE", base := some 1 }]

/-- streamers_db_generated.rs 1607-1717. -/
def rowTProcessUUID : ClassRow where
  name := b! "TProcessUUID"
  chksum := 2599661073
  version := 1
  elems :=
    [{ name := b! "TProcessID", size := 0, type := 0, typeName := b! "BASE", base := some 1 },
     { name := b! "fUUIDs", size := 8, type := 64, typeName := b! "TList*" },
     { name := b! "fActive", size := 8, type := 64, typeName := b! "TBits*" }]

/-- streamers_db_generated.rs 1718-1731. -/
def rowTQObject : ClassRow where
  name := b! "TQObject"
  chksum := 274076
  version := 1

/-- streamers_db_generated.rs 1732-1778. -/
def rowTRef : ClassRow where
  name := b! "TRef"
  chksum := 2440395009
  version := 1
  elems :=
    [{ name := b! "TObject", size := 0, type := 66, typeName := b! "BASE", base := some 1 }]

/-- streamers_db_generated.rs 1779-1792. -/
def rowTString : ClassRow where
  name := b! "TString"
  chksum := 95257
  version := 2

/-- streamers_db_generated.rs 1793-1998. -/
def rowTUUID : ClassRow where
  name := b! "TUUID"
  chksum := 3528368475
  version := 1
  elems :=
    [{ name := b! "fTimeLow", size := 4, type := 13, typeName := b! "unsigned int" },
     { name := b! "fTimeMid", size := 2, type := 12, typeName := b! "unsigned short" },
     { name := b! "fTimeHiAndVersion", size := 2, type := 12, typeName := b! "unsigned short" },
     { name := b! "fClockSeqHiAndReserved", size := 1, type := 11, typeName := b! "unsigned char" },
     { name := b! "fClockSeqLow", size := 1, type := 11, typeName := b! "unsigned char" },
     { name := b! "fNode", size := 6, type := 31, typeName := b! "unsigned char" }]

/-- streamers_db_generated.rs 1999-2177. -/
def rowTVirtualPad : ClassRow where
  name := b! "TVirtualPad"
  chksum := 686614457
  version := 3
  elems :=
    [{ name := b! "TObject", size := 0, type := 66, typeName := b! "BASE", base := some 1 },
     { name := b! "TAttLine", size := 0, type := 0, typeName := b! "BASE", base := some 2 },
     { name := b! "TAttFill", size := 0, type := 0, typeName := b! "BASE", base := some 2 },
     { name := b! "TAttPad", size := 0, type := 0, typeName := b! "BASE", base := some 4 },
     { name := b! "TQObject", size := 0, type := 0, typeName := b! "BASE", base := some 1 }]

/-- streamers_db_generated.rs 2178-2223. -/
def rowTArray : ClassRow where
  name := b! "TArray"
  chksum := 7348658
  version := 1
  elems :=
    [{ name := b! "fN", size := 4, type := 3, typeName := b! "int" }]

/-- streamers_db_generated.rs 2224-2305. -/
def rowTArrayC : ClassRow where
  name := b! "TArrayC"
  chksum := 2928122166
  version := 1
  elems :=
    [{ name := b! "TArray", size := 0, type := 0, typeName := b! "BASE", base := some 1 },
     { name := b! "fArray", size := 1, type := 41, typeName := b! "char*",
       countName := some (b! "fN"), countClass := some (b! "TArray"), countVersion := some 1 }]

/-- streamers_db_generated.rs 2306-2387. -/
def rowTArrayS : ClassRow where
  name := b! "TArrayS"
  chksum := 56398612
  version := 1
  elems :=
    [{ name := b! "TArray", size := 0, type := 0, typeName := b! "BASE", base := some 1 },
     { name := b! "fArray", size := 2, type := 42, typeName := b! "short*",
       countName := some (b! "fN"), countClass := some (b! "TArray"), countVersion := some 1 }]

/-- streamers_db_generated.rs 2388-2469. -/
def rowTArrayI : ClassRow where
  name := b! "TArrayI"
  chksum := 3654644167
  version := 1
  elems :=
    [{ name := b! "TArray", size := 0, type := 0, typeName := b! "BASE", base := some 1 },
     { name := b! "fArray", size := 4, type := 43, typeName := b! "int*",
       countName := some (b! "fN"), countClass := some (b! "TArray"), countVersion := some 1 }]

/-- streamers_db_generated.rs 2470-2551. -/
def rowTArrayL : ClassRow where
  name := b! "TArrayL"
  chksum := 4244419721
  version := 1
  elems :=
    [{ name := b! "TArray", size := 0, type := 0, typeName := b! "BASE", base := some 1 },
     { name := b! "fArray", size := 8, type := 44, typeName := b! "long*",
       countName := some (b! "fN"), countClass := some (b! "TArray"), countVersion := some 1 }]

/-- streamers_db_generated.rs 2552-2633. -/
def rowTArrayL64 : ClassRow where
  name := b! "TArrayL64"
  chksum := 417793940
  version := 1
  elems :=
    [{ name := b! "TArray", size := 0, type := 0, typeName := b! "BASE", base := some 1 },
     { name := b! "fArray", size := 8, type := 56, typeName := b! "Long64_t*",
       countName := some (b! "fN"), countClass := some (b! "TArray"), countVersion := some 1 }]

/-- streamers_db_generated.rs 2634-2715. -/
def rowTArrayF : ClassRow where
  name := b! "TArrayF"
  chksum := 1510733553
  version := 1
  elems :=
    [{ name := b! "TArray", size := 0, type := 0, typeName := b! "BASE", base := some 1 },
     { name := b! "fArray", size := 4, type := 45, typeName := b! "float*",
       countName := some (b! "fN"), countClass := some (b! "TArray"), countVersion := some 1 }]

/-- streamers_db_generated.rs 2716-2797. -/
def rowTArrayD : ClassRow where
  name := b! "TArrayD"
  chksum := 1899622196
  version := 1
  elems :=
    [{ name := b! "TArray", size := 0, type := 0, typeName := b! "BASE", base := some 1 },
     { name := b! "fArray", size := 8, type := 48, typeName := b! "double*",
       countName := some (b! "fN"), countClass := some (b! "TArray"), countVersion := some 1 }]

/-- streamers_db_generated.rs 2798-2943. -/
def rowTBits : ClassRow where
  name := b! "TBits"
  chksum := 242629704
  version := 1
  elems :=
    [{ name := b! "TObject", size := 0, type := 66, typeName := b! "BASE", base := some 1 },
     { name := b! "fNbits", size := 4, type := 13, typeName := b! "unsigned int" },
     { name := b! "fNbytes", size := 4, type := 13, typeName := b! "unsigned int" },
     { name := b! "fAllBits", size := 1, type := 51, typeName := b! "unsigned char*",
       countName := some (b! "fNbytes"), countClass := some (b! "TBits"),
       countVersion := some 1 }]

/-- streamers_db_generated.rs 2944-3054. -/
def rowTCollection : ClassRow where
  name := b! "TCollection"
  chksum := 1474546588
  version := 3
  elems :=
    [{ name := b! "TObject", size := 0, type := 66, typeName := b! "BASE", base := some 1 },
     { name := b! "fName", size := 24, type := 65, typeName := b! "TString" },
     { name := b! "fSize", size := 4, type := 3, typeName := b! "int" }]

/-- streamers_db_generated.rs 3055-3101. -/
def rowTClonesArray : ClassRow where
  name := b! "TClonesArray"
  chksum := 3066088035
  version := 4
  elems :=
    [{ name := b! "TObjArray", size := 0, type := 0, typeName := b! "BASE", base := some 3 }]

/-- streamers_db_generated.rs 3102-3148. -/
def rowTList : ClassRow where
  name := b! "TList"
  chksum := 1774568379
  version := 5
  elems :=
    [{ name := b! "TSeqCollection", size := 0, type := 0, typeName := b! "BASE", base := some 0 }]

/-- streamers_db_generated.rs 3149-3195. -/
def rowTHashList : ClassRow where
  name := b! "THashList"
  chksum := 3430828481
  version := 0
  elems :=
    [{ name := b! "TList", size := 0, type := 0, typeName := b! "BASE", base := some 5 }]

/-- streamers_db_generated.rs 3196-3242. -/
def rowTHashTable : ClassRow where
  name := b! "THashTable"
  chksum := 3776773014
  version := 0
  elems :=
    [{ name := b! "TCollection", size := 0, type := 0, typeName := b! "BASE", base := some 3 }]

/-- streamers_db_generated.rs 3243-3321. -/
def rowTMap : ClassRow where
  name := b! "TMap"
  chksum := 4274299784
  version := 3
  elems :=
    [{ name := b! "TCollection", size := 0, type := 0, typeName := b! "BASE", base := some 3 },
     { name := b! "fTable", size := 8, type := 64, typeName := b! "THashTable*" }]

/-- streamers_db_generated.rs 3322-3432. -/
def rowTObjArray : ClassRow where
  name := b! "TObjArray"
  chksum := 2845730130
  version := 3
  elems :=
    [{ name := b! "TSeqCollection", size := 0, type := 0, typeName := b! "BASE", base := some 0 },
     { name := b! "fLowerBound", size := 4, type := 3, typeName := b! "int" },
     { name := b! "fLast", size := 4, type := 3, typeName := b! "int" }]

/-- streamers_db_generated.rs 3433-3610. -/
def rowTRefArray : ClassRow where
  name := b! "TRefArray"
  chksum := 1207554269
  version := 1
  elems :=
    [{ name := b! "TSeqCollection", size := 0, type := 0, typeName := b! "BASE", base := some 0 },
     { name := b! "fPID", size := 8, type := 64, typeName := b! "TProcessID*" },
     { name := b! "fUIDs", size := 4, type := 53, typeName := b! "unsigned int*",
       countName := some (b! "fSize"), countClass := some (b! "TCollection"),
       countVersion := some 3 },
     { name := b! "fLowerBound", size := 4, type := 3, typeName := b! "int" },
     { name := b! "fLast", size := 4, type := 3, typeName := b! "int" }]

/-- streamers_db_generated.rs 3611-3786. -/
def rowTRefTable : ClassRow where
  name := b! "TRefTable"
  chksum := 2357812101
  version := 3
  elems :=
    [{ name := b! "TObject", size := 0, type := 66, typeName := b! "BASE", base := some 1 },
     { name := b! "fSize", size := 4, type := 3, typeName := b! "int" },
     { name := b! "fParents", size := 8, type := 64, typeName := b! "TObjArray*" },
     { name := b! "fOwner", size := 8, type := 64, typeName := b! "TObject*" },
     { name := b! "fProcessGUIDs", size := 24, type := 300, typeName := b! "vector<string>",
       stl := some 1 }]

/-- streamers_db_generated.rs 3787-3833. -/
def rowTSeqCollection : ClassRow where
  name := b! "TSeqCollection"
  chksum := 4234951622
  version := 0
  elems :=
    [{ name := b! "TCollection", size := 0, type := 0, typeName := b! "BASE", base := some 3 }]

/-- streamers_db_generated.rs 3834-3976. -/
def rowTStreamerInfo : ClassRow where
  name := b! "TStreamerInfo"
  chksum := 2421581955
  version := 9
  elems :=
    [{ name := b! "TVirtualStreamerInfo", size := 0, type := 0, typeName := b! "BASE",
       base := some 6 },
     { name := b! "fCheckSum", size := 4, type := 13, typeName := b! "unsigned int" },
     { name := b! "fClassVersion", size := 4, type := 3, typeName := b! "int" },
     { name := b! "fElements", size := 8, type := 64, typeName := b! "TObjArray*" }]

/-- streamers_db_generated.rs 3977-4215. -/
def rowTStreamerElement : ClassRow where
  name := b! "TStreamerElement"
  chksum := 3708727891
  version := 4
  elems :=
    [{ name := b! "TNamed", size := 0, type := 67, typeName := b! "BASE", base := some 1 },
     { name := b! "fType", size := 4, type := 3, typeName := b! "int" },
     { name := b! "fSize", size := 4, type := 3, typeName := b! "int" },
     { name := b! "fArrayLength", size := 4, type := 3, typeName := b! "int" },
     { name := b! "fArrayDim", size := 4, type := 3, typeName := b! "int" },
     { name := b! "fMaxIndex", size := 20, type := 23, typeName := b! "int" },
     { name := b! "fTypeName", size := 24, type := 65, typeName := b! "TString" }]

/-- streamers_db_generated.rs 4216-4294. -/
def rowTStreamerBase : ClassRow where
  name := b! "TStreamerBase"
  chksum := 153556400
  version := 3
  elems :=
    [{ name := b! "TStreamerElement", size := 0, type := 0, typeName := b! "BASE", base := some 4 },
     { name := b! "fBaseVersion", size := 4, type := 3, typeName := b! "int" }]

/-- streamers_db_generated.rs 4295-4341. -/
def rowTStreamerBasicType : ClassRow where
  name := b! "TStreamerBasicType"
  chksum := 4124421197
  version := 2
  elems :=
    [{ name := b! "TStreamerElement", size := 0, type := 0, typeName := b! "BASE", base := some 4 }]

/-- streamers_db_generated.rs 4342-4484. -/
def rowTStreamerBasicPointer : ClassRow where
  name := b! "TStreamerBasicPointer"
  chksum := 51937339
  version := 2
  elems :=
    [{ name := b! "TStreamerElement", size := 0, type := 0, typeName := b! "BASE", base := some 4 },
     { name := b! "fCountVersion", size := 4, type := 3, typeName := b! "int" },
     { name := b! "fCountName", size := 24, type := 65, typeName := b! "TString" },
     { name := b! "fCountClass", size := 24, type := 65, typeName := b! "TString" }]

/-- streamers_db_generated.rs 4485-4627. -/
def rowTStreamerLoop : ClassRow where
  name := b! "TStreamerLoop"
  chksum := 4082153692
  version := 2
  elems :=
    [{ name := b! "TStreamerElement", size := 0, type := 0, typeName := b! "BASE", base := some 4 },
     { name := b! "fCountVersion", size := 4, type := 3, typeName := b! "int" },
     { name := b! "fCountName", size := 24, type := 65, typeName := b! "TString" },
     { name := b! "fCountClass", size := 24, type := 65, typeName := b! "TString" }]

/-- streamers_db_generated.rs 4628-4674. -/
def rowTStreamerObject : ClassRow where
  name := b! "TStreamerObject"
  chksum := 1651163444
  version := 2
  elems :=
    [{ name := b! "TStreamerElement", size := 0, type := 0, typeName := b! "BASE", base := some 4 }]

/-- streamers_db_generated.rs 4675-4721. -/
def rowTStreamerObjectPointer : ClassRow where
  name := b! "TStreamerObjectPointer"
  chksum := 1575431499
  version := 2
  elems :=
    [{ name := b! "TStreamerElement", size := 0, type := 0, typeName := b! "BASE", base := some 4 }]

/-- streamers_db_generated.rs 4722-4768. -/
def rowTStreamerObjectAny : ClassRow where
  name := b! "TStreamerObjectAny"
  chksum := 150466384
  version := 2
  elems :=
    [{ name := b! "TStreamerElement", size := 0, type := 0, typeName := b! "BASE", base := some 4 }]

/-- streamers_db_generated.rs 4769-4815. -/
def rowTStreamerObjectAnyPointer : ClassRow where
  name := b! "TStreamerObjectAnyPointer"
  chksum := 905975423
  version := 1
  elems :=
    [{ name := b! "TStreamerElement", size := 0, type := 0, typeName := b! "BASE", base := some 4 }]

/-- streamers_db_generated.rs 4816-4862. -/
def rowTStreamerString : ClassRow where
  name := b! "TStreamerString"
  chksum := 2695532894
  version := 2
  elems :=
    [{ name := b! "TStreamerElement", size := 0, type := 0, typeName := b! "BASE", base := some 4 }]

/-- streamers_db_generated.rs 4863-4973. -/
def rowTStreamerSTL : ClassRow where
  name := b! "TStreamerSTL"
  chksum := 2314799318
  version := 3
  elems :=
    [{ name := b! "TStreamerElement", size := 0, type := 0, typeName := b! "BASE", base := some 4 },
     { name := b! "fSTLtype", size := 4, type := 3, typeName := b! "int" },
     { name := b! "fCtype", size := 4, type := 3, typeName := b! "int" }]

/-- streamers_db_generated.rs 4974-5020. -/
def rowTStreamerSTLstring : ClassRow where
  name := b! "TStreamerSTLstring"
  chksum := 640610209
  version := 2
  elems :=
    [{ name := b! "TStreamerSTL", size := 0, type := 0, typeName := b! "BASE", base := some 3 }]

/-- streamers_db_generated.rs 5021-5067. -/
def rowTStreamerArtificial : ClassRow where
  name := b! "TStreamerArtificial"
  chksum := 1445575625
  version := 0
  elems :=
    [{ name := b! "TStreamerElement", size := 0, type := 0, typeName := b! "BASE", base := some 4 }]

/-- streamers_db_generated.rs 5068-5443. -/
def rowTGraph : ClassRow where
  name := b! "TGraph"
  chksum := 100136037
  version := 4
  elems :=
    [{ name := b! "TNamed", size := 0, type := 67, typeName := b! "BASE", base := some 1 },
     { name := b! "TAttLine", size := 0, type := 0, typeName := b! "BASE", base := some 2 },
     { name := b! "TAttFill", size := 0, type := 0, typeName := b! "BASE", base := some 2 },
     { name := b! "TAttMarker", size := 0, type := 0, typeName := b! "BASE", base := some 2 },
     { name := b! "fNpoints", size := 4, type := 6, typeName := b! "int" },
     { name := b! "fX", size := 8, type := 48, typeName := b! "double*",
       countName := some (b! "fNpoints"), countClass := some (b! "TGraph"),
       countVersion := some 4 },
     { name := b! "fY", size := 8, type := 48, typeName := b! "double*",
       countName := some (b! "fNpoints"), countClass := some (b! "TGraph"),
       countVersion := some 4 },
     { name := b! "fFunctions", size := 8, type := 64, typeName := b! "TList*" },
     { name := b! "fHistogram", size := 8, type := 64, typeName := b! "TH1F*" },
     { name := b! "fMinimum", size := 8, type := 8, typeName := b! "double" },
     { name := b! "fMaximum", size := 8, type := 8, typeName := b! "double" }]

/-- streamers_db_generated.rs 5444-5586. -/
def rowTDirectory : ClassRow where
  name := b! "TDirectory"
  chksum := 513503088
  version := 5
  elems :=
    [{ name := b! "TNamed", size := 0, type := 67, typeName := b! "BASE", base := some 1 },
     { name := b! "fMother", size := 8, type := 64, typeName := b! "TObject*" },
     { name := b! "fList", size := 8, type := 64, typeName := b! "TList*" },
     { name := b! "fUUID", size := 32, type := 62, typeName := b! "TUUID" }]

/-- streamers_db_generated.rs 5587-6017. -/
def rowTDirectoryFile : ClassRow where
  name := b! "TDirectoryFile"
  chksum := 3214885950
  version := 5
  elems :=
    [{ name := b! "TDirectory", size := 0, type := 0, typeName := b! "BASE", base := some 5 },
     { name := b! "fModified", size := 1, type := 18, typeName := b! "bool" },
     { name := b! "fWritable", size := 1, type := 18, typeName := b! "bool" },
     { name := b! "fDatimeC", size := 16, type := 62, typeName := b! "TDatime" },
     { name := b! "fDatimeM", size := 16, type := 62, typeName := b! "TDatime" },
     { name := b! "fNbytesKeys", size := 4, type := 3, typeName := b! "int" },
     { name := b! "fNbytesName", size := 4, type := 3, typeName := b! "int" },
     { name := b! "fBufferSize", size := 4, type := 3, typeName := b! "int" },
     { name := b! "fSeekDir", size := 8, type := 16, typeName := b! "Long64_t" },
     { name := b! "fSeekParent", size := 8, type := 16, typeName := b! "Long64_t" },
     { name := b! "fSeekKeys", size := 8, type := 16, typeName := b! "Long64_t" },
     { name := b! "fFile", size := 8, type := 64, typeName := b! "TFile*" },
     { name := b! "fKeys", size := 8, type := 64, typeName := b! "TList*" }]

/-- streamers_db_generated.rs 6018-6736. -/
def rowTFile : ClassRow where
  name := b! "TFile"
  chksum := 2489901954
  version := 8
  elems :=
    [{ name := b! "TDirectoryFile", size := 0, type := 0, typeName := b! "BASE", base := some 5 },
     { name := b! "fSumBuffer", size := 8, type := 8, typeName := b! "double" },
     { name := b! "fSum2Buffer", size := 8, type := 8, typeName := b! "double" },
     { name := b! "fBytesWrite", size := 8, type := 16, typeName := b! "Long64_t" },
     { name := b! "fBytesRead", size := 8, type := 16, typeName := b! "Long64_t" },
     { name := b! "fBytesReadExtra", size := 8, type := 16, typeName := b! "Long64_t" },
     { name := b! "fBEGIN", size := 8, type := 16, typeName := b! "Long64_t" },
     { name := b! "fEND", size := 8, type := 16, typeName := b! "Long64_t" },
     { name := b! "fSeekFree", size := 8, type := 16, typeName := b! "Long64_t" },
     { name := b! "fSeekInfo", size := 8, type := 16, typeName := b! "Long64_t" },
     { name := b! "fD", size := 4, type := 3, typeName := b! "int" },
     { name := b! "fVersion", size := 4, type := 3, typeName := b! "int" },
     { name := b! "fCompress", size := 4, type := 3, typeName := b! "int" },
     { name := b! "fNbytesFree", size := 4, type := 3, typeName := b! "int" },
     { name := b! "fNbytesInfo", size := 4, type := 3, typeName := b! "int" },
     { name := b! "fWritten", size := 4, type := 3, typeName := b! "int" },
     { name := b! "fNProcessIDs", size := 4, type := 3, typeName := b! "int" },
     { name := b! "fReadCalls", size := 4, type := 3, typeName := b! "int" },
     { name := b! "fRealName", size := 24, type := 65, typeName := b! "TString" },
     { name := b! "fOption", size := 24, type := 65, typeName := b! "TString" },
     { name := b! "fUnits", size := 1, type := 1, typeName := b! "char" },
     { name := b! "fFree", size := 8, type := 64, typeName := b! "TList*" }]

/-- streamers_db_generated.rs 6737-7167. -/
def rowTKey : ClassRow where
  name := b! "TKey"
  chksum := 758463703
  version := 4
  elems :=
    [{ name := b! "TNamed", size := 0, type := 67, typeName := b! "BASE", base := some 1 },
     { name := b! "fVersion", size := 4, type := 3, typeName := b! "int" },
     { name := b! "fNbytes", size := 4, type := 3, typeName := b! "int" },
     { name := b! "fObjlen", size := 4, type := 3, typeName := b! "int" },
     { name := b! "fDatime", size := 16, type := 62, typeName := b! "TDatime" },
     { name := b! "fKeylen", size := 2, type := 2, typeName := b! "short" },
     { name := b! "fCycle", size := 2, type := 2, typeName := b! "short" },
     { name := b! "fSeekKey", size := 8, type := 16, typeName := b! "Long64_t" },
     { name := b! "fSeekPdir", size := 8, type := 16, typeName := b! "Long64_t" },
     { name := b! "fClassName", size := 24, type := 65, typeName := b! "TString" },
     { name := b! "fLeft", size := 4, type := 3, typeName := b! "int" },
     { name := b! "fBuffer", size := 8, type := 7, typeName := b! "char*" },
     { name := b! "fBufferRef", size := 8, type := 64, typeName := b! "TBuffer*" }]

/-- streamers_db_generated.rs 7168-7566. -/
def rowTFeldmanCousins : ClassRow where
  name := b! "TFeldmanCousins"
  chksum := 3955179999
  version := 1
  elems :=
    [{ name := b! "TObject", size := 0, type := 66, typeName := b! "BASE", base := some 1 },
     { name := b! "fCL", size := 8, type := 8, typeName := b! "double" },
     { name := b! "fUpperLimit", size := 8, type := 8, typeName := b! "double" },
     { name := b! "fLowerLimit", size := 8, type := 8, typeName := b! "double" },
     { name := b! "fNobserved", size := 8, type := 8, typeName := b! "double" },
     { name := b! "fNbackground", size := 8, type := 8, typeName := b! "double" },
     { name := b! "fMuMin", size := 8, type := 8, typeName := b! "double" },
     { name := b! "fMuMax", size := 8, type := 8, typeName := b! "double" },
     { name := b! "fMuStep", size := 8, type := 8, typeName := b! "double" },
     { name := b! "fNMuStep", size := 4, type := 3, typeName := b! "int" },
     { name := b! "fNMax", size := 4, type := 3, typeName := b! "int" },
     { name := b! "fQUICK", size := 4, type := 3, typeName := b! "int" }]

/-- streamers_db_generated.rs 7567-7677. -/
def rowTLorentzVector : ClassRow where
  name := b! "TLorentzVector"
  chksum := 3823026593
  version := 4
  elems :=
    [{ name := b! "TObject", size := 0, type := 66, typeName := b! "BASE", base := some 1 },
     { name := b! "fP", size := 40, type := 61, typeName := b! "TVector3" },
     { name := b! "fE", size := 8, type := 8, typeName := b! "double" }]

/-- streamers_db_generated.rs 7678-7788. -/
def rowTVector2 : ClassRow where
  name := b! "TVector2"
  chksum := 9025524
  version := 3
  elems :=
    [{ name := b! "TObject", size := 0, type := 66, typeName := b! "BASE", base := some 1 },
     { name := b! "fX", size := 8, type := 8, typeName := b! "double" },
     { name := b! "fY", size := 8, type := 8, typeName := b! "double" }]

/-- streamers_db_generated.rs 7789-7931. -/
def rowTVector3 : ClassRow where
  name := b! "TVector3"
  chksum := 2880880158
  version := 3
  elems :=
    [{ name := b! "TObject", size := 0, type := 66, typeName := b! "BASE", base := some 1 },
     { name := b! "fX", size := 8, type := 8, typeName := b! "double" },
     { name := b! "fY", size := 8, type := 8, typeName := b! "double" },
     { name := b! "fZ", size := 8, type := 8, typeName := b! "double" }]

/-- streamers_db_generated.rs 7932-7977. -/
def rowROOTTIOFeatures : ClassRow where
  name := b! "ROOT::TIOFeatures"
  chksum := 446770960
  version := -1
  elems :=
    [{ name := b! "fIOBits", size := 1, type := 11, typeName := b! "unsigned char" }]

/-- streamers_db_generated.rs 7978-8253. -/
def rowTBasket : ClassRow where
  name := b! "TBasket"
  chksum := 3153532903
  version := 3
  elems :=
    [{ name := b! "TKey", size := 0, type := 0, typeName := b! "BASE", base := some 4 },
     { name := b! "fBufferSize", size := 4, type := 3, typeName := b! "int" },
     { name := b! "fNevBufSize", size := 4, type := 3, typeName := b! "int" },
     { name := b! "fNevBuf", size := 4, type := 6, typeName := b! "int" },
     { name := b! "fLast", size := 4, type := 3, typeName := b! "int" },
     { name := b! "fHeaderOnly", size := 1, type := 18, typeName := b! "bool" },
     { name := b! "fEntryOffset", size := 4, type := 43, typeName := b! "int*",
       countName := some (b! "fNevBuf"), countClass := some (b! "TBasket"),
       countVersion := some 3 },
     { name := b! "fBranch", size := 8, type := 64, typeName := b! "TBranch*" }]

/-- streamers_db_generated.rs 8254-8982. -/
def rowTBranch : ClassRow where
  name := b! "TBranch"
  chksum := 278366892
  version := 13
  elems :=
    [{ name := b! "TNamed", size := 0, type := 67, typeName := b! "BASE", base := some 1 },
     { name := b! "TAttFill", size := 0, type := 0, typeName := b! "BASE", base := some 2 },
     { name := b! "fCompress", size := 4, type := 3, typeName := b! "int" },
     { name := b! "fBasketSize", size := 4, type := 3, typeName := b! "int" },
     { name := b! "fEntryOffsetLen", size := 4, type := 3, typeName := b! "int" },
     { name := b! "fWriteBasket", size := 4, type := 3, typeName := b! "int" },
     { name := b! "fEntryNumber", size := 8, type := 16, typeName := b! "Long64_t" },
     { name := b! "fIOFeatures", size := 1, type := 62, typeName := b! "ROOT::TIOFeatures" },
     { name := b! "fOffset", size := 4, type := 3, typeName := b! "int" },
     { name := b! "fMaxBaskets", size := 4, type := 6, typeName := b! "int" },
     { name := b! "fSplitLevel", size := 4, type := 3, typeName := b! "int" },
     { name := b! "fEntries", size := 8, type := 16, typeName := b! "Long64_t" },
     { name := b! "fFirstEntry", size := 8, type := 16, typeName := b! "Long64_t" },
     { name := b! "fTotBytes", size := 8, type := 16, typeName := b! "Long64_t" },
     { name := b! "fZipBytes", size := 8, type := 16, typeName := b! "Long64_t" },
     { name := b! "fBranches", size := 64, type := 61, typeName := b! "TObjArray" },
     { name := b! "fLeaves", size := 64, type := 61, typeName := b! "TObjArray" },
     { name := b! "fBaskets", size := 64, type := 61, typeName := b! "TObjArray" },
     { name := b! "fBasketBytes", size := 4, type := 43, typeName := b! "int*",
       countName := some (b! "fMaxBaskets"), countClass := some (b! "TBranch"),
       countVersion := some 13 },
     { name := b! "fBasketEntry", size := 8, type := 56, typeName := b! "Long64_t*",
       countName := some (b! "fMaxBaskets"), countClass := some (b! "TBranch"),
       countVersion := some 13 },
     { name := b! "fBasketSeek", size := 8, type := 56, typeName := b! "Long64_t*",
       countName := some (b! "fMaxBaskets"), countClass := some (b! "TBranch"),
       countVersion := some 13 },
     { name := b! "fFileName", size := 24, type := 65, typeName := b! "TString" }]

/-- streamers_db_generated.rs 8983-9381. -/
def rowTBranchElement : ClassRow where
  name := b! "TBranchElement"
  chksum := 3880738403
  version := 10
  elems :=
    [{ name := b! "TBranch", size := 0, type := 0, typeName := b! "BASE", base := some 13 },
     { name := b! "fClassName", size := 24, type := 65, typeName := b! "TString" },
     { name := b! "fParentName", size := 24, type := 65, typeName := b! "TString" },
     { name := b! "fClonesName", size := 24, type := 65, typeName := b! "TString" },
     { name := b! "fCheckSum", size := 4, type := 13, typeName := b! "unsigned int" },
     { name := b! "fClassVersion", size := 2, type := 2, typeName := b! "short" },
     { name := b! "fID", size := 4, type := 3, typeName := b! "int" },
     { name := b! "fType", size := 4, type := 3, typeName := b! "int" },
     { name := b! "fStreamerType", size := 4, type := 3, typeName := b! "int" },
     { name := b! "fMaximum", size := 4, type := 3, typeName := b! "int" },
     { name := b! "fBranchCount", size := 8, type := 64, typeName := b! "TBranchElement*" },
     { name := b! "fBranchCount2", size := 8, type := 64, typeName := b! "TBranchElement*" }]

/-- streamers_db_generated.rs 9382-9460. -/
def rowTBranchObject : ClassRow where
  name := b! "TBranchObject"
  chksum := 2758938441
  version := 1
  elems :=
    [{ name := b! "TBranch", size := 0, type := 0, typeName := b! "BASE", base := some 13 },
     { name := b! "fClassName", size := 24, type := 65, typeName := b! "TString" }]

/-- streamers_db_generated.rs 9461-9539. -/
def rowTBranchRef : ClassRow where
  name := b! "TBranchRef"
  chksum := 593540093
  version := 1
  elems :=
    [{ name := b! "TBranch", size := 0, type := 0, typeName := b! "BASE", base := some 13 },
     { name := b! "fRefTable", size := 8, type := 64, typeName := b! "TRefTable*" }]

/-- streamers_db_generated.rs 9540-9749. -/
def rowTChain : ClassRow where
  name := b! "TChain"
  chksum := 983483752
  version := 5
  elems :=
    [{ name := b! "TTree", size := 0, type := 0, typeName := b! "BASE", base := some 20 },
     { name := b! "fTreeOffsetLen", size := 4, type := 6, typeName := b! "int" },
     { name := b! "fNtrees", size := 4, type := 3, typeName := b! "int" },
     { name := b! "fTreeOffset", size := 8, type := 56, typeName := b! "Long64_t*",
       countName := some (b! "fTreeOffsetLen"), countClass := some (b! "TChain"),
       countVersion := some 5 },
     { name := b! "fFiles", size := 8, type := 63, typeName := b! "TObjArray*" },
     { name := b! "fStatus", size := 8, type := 63, typeName := b! "TList*" }]

/-- streamers_db_generated.rs 9750-9988. -/
def rowTLeaf : ClassRow where
  name := b! "TLeaf"
  chksum := 1830715730
  version := 2
  elems :=
    [{ name := b! "TNamed", size := 0, type := 67, typeName := b! "BASE", base := some 1 },
     { name := b! "fLen", size := 4, type := 3, typeName := b! "int" },
     { name := b! "fLenType", size := 4, type := 3, typeName := b! "int" },
     { name := b! "fOffset", size := 4, type := 3, typeName := b! "int" },
     { name := b! "fIsRange", size := 1, type := 18, typeName := b! "bool" },
     { name := b! "fIsUnsigned", size := 1, type := 18, typeName := b! "bool" },
     { name := b! "fLeafCount", size := 8, type := 64, typeName := b! "TLeaf*" }]

/-- streamers_db_generated.rs 9989-10099. -/
def rowTLeafElement : ClassRow where
  name := b! "TLeafElement"
  chksum := 2689566867
  version := 1
  elems :=
    [{ name := b! "TLeaf", size := 0, type := 0, typeName := b! "BASE", base := some 2 },
     { name := b! "fID", size := 4, type := 3, typeName := b! "int" },
     { name := b! "fType", size := 4, type := 3, typeName := b! "int" }]

/-- streamers_db_generated.rs 10100-10178. -/
def rowTLeafObject : ClassRow where
  name := b! "TLeafObject"
  chksum := 649755724
  version := 4
  elems :=
    [{ name := b! "TLeaf", size := 0, type := 0, typeName := b! "BASE", base := some 2 },
     { name := b! "fVirtual", size := 1, type := 18, typeName := b! "bool" }]

/-- streamers_db_generated.rs 10179-10289. -/
def rowTLeafO : ClassRow where
  name := b! "TLeafO"
  chksum := 44976339
  version := 1
  elems :=
    [{ name := b! "TLeaf", size := 0, type := 0, typeName := b! "BASE", base := some 2 },
     { name := b! "fMinimum", size := 1, type := 18, typeName := b! "bool" },
     { name := b! "fMaximum", size := 1, type := 18, typeName := b! "bool" }]

/-- streamers_db_generated.rs 10290-10400. -/
def rowTLeafB : ClassRow where
  name := b! "TLeafB"
  chksum := 253643614
  version := 1
  elems :=
    [{ name := b! "TLeaf", size := 0, type := 0, typeName := b! "BASE", base := some 2 },
     { name := b! "fMinimum", size := 1, type := 1, typeName := b! "char" },
     { name := b! "fMaximum", size := 1, type := 1, typeName := b! "char" }]

/-- streamers_db_generated.rs 10401-10511. -/
def rowTLeafS : ClassRow where
  name := b! "TLeafS"
  chksum := 353169103
  version := 1
  elems :=
    [{ name := b! "TLeaf", size := 0, type := 0, typeName := b! "BASE", base := some 2 },
     { name := b! "fMinimum", size := 2, type := 2, typeName := b! "short" },
     { name := b! "fMaximum", size := 2, type := 2, typeName := b! "short" }]

/-- streamers_db_generated.rs 10512-10622. -/
def rowTLeafI : ClassRow where
  name := b! "TLeafI"
  chksum := 2120920601
  version := 1
  elems :=
    [{ name := b! "TLeaf", size := 0, type := 0, typeName := b! "BASE", base := some 2 },
     { name := b! "fMinimum", size := 4, type := 3, typeName := b! "int" },
     { name := b! "fMaximum", size := 4, type := 3, typeName := b! "int" }]

/-- streamers_db_generated.rs 10623-10733. -/
def rowTLeafL : ClassRow where
  name := b! "TLeafL"
  chksum := 3727820898
  version := 1
  elems :=
    [{ name := b! "TLeaf", size := 0, type := 0, typeName := b! "BASE", base := some 2 },
     { name := b! "fMinimum", size := 8, type := 16, typeName := b! "Long64_t" },
     { name := b! "fMaximum", size := 8, type := 16, typeName := b! "Long64_t" }]

/-- streamers_db_generated.rs 10734-10844. -/
def rowTLeafG : ClassRow where
  name := b! "TLeafG"
  chksum := 3970374839
  version := 1
  elems :=
    [{ name := b! "TLeaf", size := 0, type := 0, typeName := b! "BASE", base := some 2 },
     { name := b! "fMinimum", size := 8, type := 4, typeName := b! "long" },
     { name := b! "fMaximum", size := 8, type := 4, typeName := b! "long" }]

/-- streamers_db_generated.rs 10845-10955. -/
def rowTLeafF : ClassRow where
  name := b! "TLeafF"
  chksum := 987602290
  version := 1
  elems :=
    [{ name := b! "TLeaf", size := 0, type := 0, typeName := b! "BASE", base := some 2 },
     { name := b! "fMinimum", size := 4, type := 5, typeName := b! "float" },
     { name := b! "fMaximum", size := 4, type := 5, typeName := b! "float" }]

/-- streamers_db_generated.rs 10956-11066. -/
def rowTLeafD : ClassRow where
  name := b! "TLeafD"
  chksum := 294553462
  version := 1
  elems :=
    [{ name := b! "TLeaf", size := 0, type := 0, typeName := b! "BASE", base := some 2 },
     { name := b! "fMinimum", size := 8, type := 8, typeName := b! "double" },
     { name := b! "fMaximum", size := 8, type := 8, typeName := b! "double" }]

/-- streamers_db_generated.rs 11067-11177. -/
def rowTLeafF16 : ClassRow where
  name := b! "TLeafF16"
  chksum := 3946182787
  version := 1
  elems :=
    [{ name := b! "TLeaf", size := 0, type := 0, typeName := b! "BASE", base := some 2 },
     { name := b! "fMinimum", size := 4, type := 19, typeName := b! "Float16_t" },
     { name := b! "fMaximum", size := 4, type := 19, typeName := b! "Float16_t" }]

/-- streamers_db_generated.rs 11178-11288. -/
def rowTLeafD32 : ClassRow where
  name := b! "TLeafD32"
  chksum := 3789317121
  version := 1
  elems :=
    [{ name := b! "TLeaf", size := 0, type := 0, typeName := b! "BASE", base := some 2 },
     { name := b! "fMinimum", size := 8, type := 9, typeName := b! "Double32_t" },
     { name := b! "fMaximum", size := 8, type := 9, typeName := b! "Double32_t" }]

/-- streamers_db_generated.rs 11289-11399. -/
def rowTLeafC : ClassRow where
  name := b! "TLeafC"
  chksum := 4226003699
  version := 1
  elems :=
    [{ name := b! "TLeaf", size := 0, type := 0, typeName := b! "BASE", base := some 2 },
     { name := b! "fMinimum", size := 4, type := 3, typeName := b! "int" },
     { name := b! "fMaximum", size := 4, type := 3, typeName := b! "int" }]

/-- streamers_db_generated.rs 11400-11478. -/
def rowTNtuple : ClassRow where
  name := b! "TNtuple"
  chksum := 3097828523
  version := 2
  elems :=
    [{ name := b! "TTree", size := 0, type := 0, typeName := b! "BASE", base := some 20 },
     { name := b! "fNvar", size := 4, type := 3, typeName := b! "int" }]

/-- streamers_db_generated.rs 11479-11557. -/
def rowTNtupleD : ClassRow where
  name := b! "TNtupleD"
  chksum := 2380847219
  version := 1
  elems :=
    [{ name := b! "TTree", size := 0, type := 0, typeName := b! "BASE", base := some 20 },
     { name := b! "fNvar", size := 4, type := 3, typeName := b! "int" }]

/-- streamers_db_generated.rs 11558-12638. -/
def rowTTree : ClassRow where
  name := b! "TTree"
  chksum := 1919213695
  version := 20
  elems :=
    [{ name := b! "TNamed", size := 0, type := 67, typeName := b! "BASE", base := some 1 },
     { name := b! "TAttLine", size := 0, type := 0, typeName := b! "BASE", base := some 2 },
     { name := b! "TAttFill", size := 0, type := 0, typeName := b! "BASE", base := some 2 },
     { name := b! "TAttMarker", size := 0, type := 0, typeName := b! "BASE", base := some 2 },
     { name := b! "fEntries", size := 8, type := 16, typeName := b! "Long64_t" },
     { name := b! "fTotBytes", size := 8, type := 16, typeName := b! "Long64_t" },
     { name := b! "fZipBytes", size := 8, type := 16, typeName := b! "Long64_t" },
     { name := b! "fSavedBytes", size := 8, type := 16, typeName := b! "Long64_t" },
     { name := b! "fFlushedBytes", size := 8, type := 16, typeName := b! "Long64_t" },
     { name := b! "fWeight", size := 8, type := 8, typeName := b! "double" },
     { name := b! "fTimerInterval", size := 4, type := 3, typeName := b! "int" },
     { name := b! "fScanField", size := 4, type := 3, typeName := b! "int" },
     { name := b! "fUpdate", size := 4, type := 3, typeName := b! "int" },
     { name := b! "fDefaultEntryOffsetLen", size := 4, type := 3, typeName := b! "int" },
     { name := b! "fNClusterRange", size := 4, type := 6, typeName := b! "int" },
     { name := b! "fMaxEntries", size := 8, type := 16, typeName := b! "Long64_t" },
     { name := b! "fMaxEntryLoop", size := 8, type := 16, typeName := b! "Long64_t" },
     { name := b! "fMaxVirtualSize", size := 8, type := 16, typeName := b! "Long64_t" },
     { name := b! "fAutoSave", size := 8, type := 16, typeName := b! "Long64_t" },
     { name := b! "fAutoFlush", size := 8, type := 16, typeName := b! "Long64_t" },
     { name := b! "fEstimate", size := 8, type := 16, typeName := b! "Long64_t" },
     { name := b! "fClusterRangeEnd", size := 8, type := 56, typeName := b! "Long64_t*",
       countName := some (b! "fNClusterRange"), countClass := some (b! "TTree"),
       countVersion := some 20 },
     { name := b! "fClusterSize", size := 8, type := 56, typeName := b! "Long64_t*",
       countName := some (b! "fNClusterRange"), countClass := some (b! "TTree"),
       countVersion := some 20 },
     { name := b! "fIOFeatures", size := 1, type := 62, typeName := b! "ROOT::TIOFeatures" },
     { name := b! "fBranches", size := 64, type := 61, typeName := b! "TObjArray" },
     { name := b! "fLeaves", size := 64, type := 61, typeName := b! "TObjArray" },
     { name := b! "fAliases", size := 8, type := 64, typeName := b! "TList*" },
     { name := b! "fIndexValues", size := 24, type := 62, typeName := b! "TArrayD" },
     { name := b! "fIndex", size := 24, type := 62, typeName := b! "TArrayI" },
     { name := b! "fTreeIndex", size := 8, type := 64, typeName := b! "TVirtualIndex*" },
     { name := b! "fFriends", size := 8, type := 64, typeName := b! "TList*" },
     { name := b! "fUserInfo", size := 8, type := 64, typeName := b! "TList*" },
     { name := b! "fBranchRef", size := 8, type := 64, typeName := b! "TBranchRef*" }]

/-- streamers_db_generated.rs 12639-12844. -/
def rowTAttCanvas : ClassRow where
  name := b! "TAttCanvas"
  chksum := 4134953791
  version := 1
  elems :=
    [{ name := b! "fXBetween", size := 4, type := 5, typeName := b! "float" },
     { name := b! "fYBetween", size := 4, type := 5, typeName := b! "float" },
     { name := b! "fTitleFromTop", size := 4, type := 5, typeName := b! "float" },
     { name := b! "fXdate", size := 4, type := 5, typeName := b! "float" },
     { name := b! "fYdate", size := 4, type := 5, typeName := b! "float" },
     { name := b! "fAdate", size := 4, type := 5, typeName := b! "float" }]

/-- streamers_db_generated.rs 12845-13372. -/
def rowTCanvas : ClassRow where
  name := b! "TCanvas"
  chksum := 232602757
  version := 8
  elems :=
    [{ name := b! "TPad", size := 0, type := 0, typeName := b! "BASE", base := some 13 },
     { name := b! "fCatt", size := 32, type := 62, typeName := b! "TAttCanvas" },
     { name := b! "fDISPLAY", size := 24, type := 65, typeName := b! "TString" },
     { name := b! "fXsizeUser", size := 4, type := 5, typeName := b! "float" },
     { name := b! "fYsizeUser", size := 4, type := 5, typeName := b! "float" },
     { name := b! "fXsizeReal", size := 4, type := 5, typeName := b! "float" },
     { name := b! "fYsizeReal", size := 4, type := 5, typeName := b! "float" },
     { name := b! "fHighLightColor", size := 2, type := 2, typeName := b! "short" },
     { name := b! "fDoubleBuffer", size := 4, type := 3, typeName := b! "int" },
     { name := b! "fWindowTopX", size := 4, type := 3, typeName := b! "int" },
     { name := b! "fWindowTopY", size := 4, type := 3, typeName := b! "int" },
     { name := b! "fWindowWidth", size := 4, type := 13, typeName := b! "unsigned int" },
     { name := b! "fWindowHeight", size := 4, type := 13, typeName := b! "unsigned int" },
     { name := b! "fCw", size := 4, type := 13, typeName := b! "unsigned int" },
     { name := b! "fCh", size := 4, type := 13, typeName := b! "unsigned int" },
     { name := b! "fRetained", size := 1, type := 18, typeName := b! "bool" }]

/-- streamers_db_generated.rs: the whole table. -/
def classRows : List ClassRow :=
  [rowTAttAxis, rowTAttBBox2D, rowTAttFill, rowTAttLine, rowTAttMarker, rowTAttPad,
   rowTDatime, rowTNamed, rowTObject, rowTObjString, rowTProcessID, rowTProcessUUID,
   rowTQObject, rowTRef, rowTString, rowTUUID, rowTVirtualPad, rowTArray, rowTArrayC,
   rowTArrayS, rowTArrayI, rowTArrayL, rowTArrayL64, rowTArrayF, rowTArrayD, rowTBits,
   rowTCollection, rowTClonesArray, rowTList, rowTHashList, rowTHashTable, rowTMap,
   rowTObjArray, rowTRefArray, rowTRefTable, rowTSeqCollection, rowTStreamerInfo,
   rowTStreamerElement, rowTStreamerBase, rowTStreamerBasicType, rowTStreamerBasicPointer,
   rowTStreamerLoop, rowTStreamerObject, rowTStreamerObjectPointer, rowTStreamerObjectAny,
   rowTStreamerObjectAnyPointer, rowTStreamerString, rowTStreamerSTL, rowTStreamerSTLstring,
   rowTStreamerArtificial, rowTGraph, rowTDirectory, rowTDirectoryFile, rowTFile, rowTKey,
   rowTFeldmanCousins, rowTLorentzVector, rowTVector2, rowTVector3, rowROOTTIOFeatures,
   rowTBasket, rowTBranch, rowTBranchElement, rowTBranchObject, rowTBranchRef, rowTChain,
   rowTLeaf, rowTLeafElement, rowTLeafObject, rowTLeafO, rowTLeafB, rowTLeafS, rowTLeafI,
   rowTLeafL, rowTLeafG, rowTLeafF, rowTLeafD, rowTLeafF16, rowTLeafD32, rowTLeafC,
   rowTNtuple, rowTNtupleD, rowTTree, rowTAttCanvas, rowTCanvas]

/-- db.rs 52-62 `DBSTREAMER`: the records inserted by `populate_db`. -/
def bundledRecords : Res (List StreamerInfo) := populate 0 classRows

/-- db.rs 24-27: the key of a record, `name-version` (`-` is 45). -/
def StreamerInfo.dbKey (s : StreamerInfo) : Str := s.name ++ 45 :: decimalI s.clsver

/-- db.rs 29-37: the last record inserted under the key; for a version that is not positive, a record
whose key starts with `name-` (the order of a `HashMap` is not specified, here it is the first one inserted;
C48_order shows that there is at most one). -/
def findRecord (rs : List StreamerInfo) (name : Str) (vers : Int) : Option StreamerInfo :=
  if 0 < vers then rs.reverse.find? fun s => s.dbKey = name ++ 45 :: decimalI vers
  else rs.find? fun s => (name ++ [45]).isPrefixOf s.dbKey

/-- db.rs 29-45 on `DBSTREAMER`. -/
def bundledDb (name : Str) (vers : Int) : Option StreamerInfo :=
  match bundledRecords with
  | .error _ => none
  | .ok rs => findRecord rs name vers

/-- The process: the bundled dictionary, with addresses `addr`. -/
def bundledEnv (addr : Nat → Nat) : Env where
  db := bundledDb
  addr := addr

end Verif
