import Verif.Model.Refs
/-
Streamer records: rdict/mod.rs, rdict/streamers/streamer_types.rs.
-/
namespace Verif

/-- rvers.rs `STREAMER_INFO`. -/
def rversStreamerInfo : Int := 9
/-- rvers.rs `STREAMER_ELEMENT`. -/
def rversStreamerElement : Int := 4
/-- rvers.rs `STREAMER_BASE`. -/
def rversStreamerBase : Int := 3
/-- rvers.rs `STREAMER_STL`. -/
def rversStreamerStl : Int := 3
/-- rvers.rs `STREAMER_STRING`, `STREAMER_BASIC_TYPE`, `STREAMER_OBJECT`,
`STREAMER_OBJECT_POINTER`, `STREAMER_OBJECT_ANY`, `STREAMER_BASIC_POINTER`, `STREAMER_STLSTRING`. -/
def rversStreamer2 : Int := 2

/-! ### ESTLType, rmeta/consts.rs 165-203 -/

/-- rmeta/consts.rs 165-195 `ESTLType`. -/
inductive ESTLType where
  | notSTL | vector | list | deque | map | multimap | set | multiset | bitset | forwardlist
  | unorderedset | unorderedmultiset | unorderedmap | unorderedmultimap | «end» | any | stdstring
  deriving DecidableEq, Repr

/-- Discriminants of rmeta/consts.rs 165-195. -/
def ESTLType.table : List (ESTLType × Int) :=
  [(.notSTL, 0), (.vector, 1), (.list, 2), (.deque, 3), (.map, 4), (.multimap, 5), (.set, 6),
   (.multiset, 7), (.bitset, 8), (.forwardlist, 9), (.unorderedset, 10), (.unorderedmultiset, 11),
   (.unorderedmap, 12), (.unorderedmultimap, 13), (.end, 14), (.any, 300), (.stdstring, 365)]

/-- Derived `ToPrimitive`. -/
def ESTLType.code (e : ESTLType) : Int :=
  match ESTLType.table.find? (·.1 = e) with
  | some p => p.2
  | none => 0

/-- rmeta/consts.rs 197-200 `from_i32`. -/
def ESTLType.fromI32 (i : Int) : Option ESTLType :=
  (ESTLType.table.find? (·.2 = i)).map (·.1)

/-! ### StreamerElement, rdict/mod.rs 482-713 -/

/-- rdict/mod.rs 483-507 `StreamerElement`; `_offset` is never used; floats are bit patterns; `id`
identifies the element when it is written. -/
structure StreamerElement where
  named : TNamed := {}
  etype : EnumT := .named .base
  esize : Int := 0
  arrLen : Int := 0
  arrDim : Int := 0
  maxIdx : List Int := [0, 0, 0, 0, 0]
  ename : Str := []
  xmin : Nat := 0
  xmax : Nat := 0
  factor : Nat := 0
  id : Nat := 0
  deriving DecidableEq, Repr

/-- streamer_types.rs 12-51 `get_range`: all zeros, or an abort. `[` is 91, `]` is 93, `,` is 44.
The last `[` must be the first byte of the title. -/
def getRangeOk (s : Str) : Bool :=
  if s.contains 91 then
    match s with
    | [] => true
    | b :: t =>
      -- `rfind('[') > 0` aborts
      if t.contains 91 || b ≠ 91 then false
      else if t.contains 93 then
        -- the slice up to the last `]`
        ! ((t.take (t.length - 1 - t.reverse.idxOf 93)).contains 44)
      else true
  else true

/-- rdict/mod.rs 560-618 `unmarshal`, on an element with the given `id`.  Version 1 and 3 are
`todo!()`. -/
def StreamerElement.unmarshal : Rd StreamerElement := do
  let h ← Rd.header
  if rversStreamerElement < h.vers then Rd.fail .versionTooHigh
  else
    let named ← TNamed.unmarshal
    let et ← Rd.i32
    let esize ← Rd.i32
    let arrLen ← Rd.i32
    let arrDim ← Rd.i32
    if h.vers = 1 then Rd.panic
    else
      let maxIdx ← Rd.times 5 Rd.i32
      let ename ← Rd.string
      let et := EnumT.fromI32 et
      let et := if et = .named .uChar ∧ (ename = b! "Bool_t" ∨ ename = b! "bool")
        then .named .bool else et
      let e : StreamerElement :=
        { named := named, etype := et, esize := esize, arrLen := arrLen, arrDim := arrDim,
          maxIdx := maxIdx, ename := ename }
      if h.vers < 3 then pure e
      else if h.vers = 3 then Rd.panic
      else if getRangeOk named.title then pure e
      else Rd.panic

/-- rdict/mod.rs 620-707 `marshal`: `TNamed` and `TObject` types are written as 0. -/
def StreamerElement.marshal (e : StreamerElement) : Wr Nat := do
  Wr.lenMinusOne
  Wr.framed rversStreamerElement do
    Wr.drop e.named.marshal
    Wr.i32 (if e.etype = .named .tNamed then 0 else if e.etype = .named .tObject then 0
      else e.etype.toI32)
    Wr.i32 e.esize
    Wr.i32 e.arrLen
    Wr.i32 e.arrDim
    Wr.each Wr.i32 e.maxIdx
    Wr.string e.ename

/-! ### The kinds of elements -/

/-- rdict/mod.rs 23-34 `Streamer`. -/
inductive Streamer where
  | string (e : StreamerElement)
  | stlString (e : StreamerElement) (vtype : ESTLType) (ctype : EnumT)
  | basicType (e : StreamerElement)
  | basicPointer (e : StreamerElement) (cvers : Int) (cname ccls : Str)
  | objectAny (e : StreamerElement)
  | stl (e : StreamerElement) (vtype : ESTLType) (ctype : EnumT)
  | base (e : StreamerElement) (vbase : Int)
  | object (e : StreamerElement)
  | objectPointer (e : StreamerElement)
  deriving DecidableEq, Repr

/-- rdict/mod.rs 87-99 `element`. -/
def Streamer.element : Streamer → StreamerElement
  | .string e | .stlString e _ _ | .basicType e | .basicPointer e _ _ _ | .objectAny e
  | .stl e _ _ | .base e _ | .object e | .objectPointer e => e

/-- rdict/mod.rs 122-136 `class`. -/
def Streamer.cls : Streamer → Str
  | .string _ => b! "TStreamerString"
  | .stlString .. => b! "TStreamerSTLstring"
  | .basicType _ => b! "TStreamerBasicType"
  | .basicPointer .. => b! "TStreamerBasicPointer"
  | .objectAny _ => b! "TStreamerObjectAny"
  | .stl .. => b! "TStreamerSTL"
  | .base .. => b! "TStreamerBase"
  | .object _ => b! "TStreamerObject"
  | .objectPointer _ => b! "TStreamerObjectPointer"

/-- rdict/mod.rs 73-85 `name`. -/
def Streamer.name (s : Streamer) : Str := s.element.named.name

/-- streamer_types.rs: `marshal` of StreamerBase 82-102, StreamerString 140-161,
StreamerBasicType 228-258, StreamerObject 283-303, StreamerObjectPointer 328-348, StreamerObjectAny
373-402, StreamerBasicPointer 422-451, StreamerSTL 489-527, StreamerSTLstring 574-578 (`todo!()`). -/
def Streamer.marshal : Streamer → Wr Nat
  | .string e | .basicType e | .object e | .objectPointer e | .objectAny e => do
    Wr.lenMinusOne
    Wr.framed rversStreamer2 do
      Wr.drop e.marshal
  | .base e vbase => do
    Wr.lenMinusOne
    Wr.framed rversStreamerBase do
      Wr.drop e.marshal
      Wr.i32 vbase
  | .basicPointer e cvers cname ccls => do
    Wr.lenMinusOne
    Wr.framed rversStreamer2 do
      Wr.drop e.marshal
      Wr.i32 cvers
      Wr.string cname
      Wr.string ccls
  | .stl e vtype ctype => do
    Wr.lenMinusOne
    Wr.framed rversStreamerStl do
      Wr.drop e.marshal
      Wr.i32 vtype.code
      Wr.i32 ctype.toI32
  | .stlString .. => Wr.panic

/-- The readers of String, Object, ObjectPointer and ObjectAny: streamer_types.rs 126-138, 271-281,
316-326, 361-371. -/
def Streamer.unmarshalPlain (mk : StreamerElement → Streamer) : Rd Streamer := do
  let h ← Rd.header
  Rd.ensureMax h.vers rversStreamer2
  let e ← StreamerElement.unmarshal
  pure (mk e)

/-- streamer_types.rs 65-88 `StreamerBase::unmarshal`. -/
def Streamer.unmarshalBase : Rd Streamer := do
  let h ← Rd.header
  Rd.ensureMax h.vers rversStreamerBase
  let e ← StreamerElement.unmarshal
  let vbase ← if 2 < h.vers then Rd.i32 else pure 0
  pure (.base e vbase)

/-- streamer_types.rs 186-213: the size of a basic type. -/
def EnumNamed.basicSize : EnumNamed → Option Int
  | .bool | .uChar | .char => some 1
  | .short | .uShort => some 2
  | .bits | .uInt | .int | .counter => some 4
  | .uLong | .uLong64 | .long | .long64 => some 8
  | .float | .float16 => some 4
  | .double | .double32 => some 8
  | .charStar => some 8
  | _ => none

/-- streamer_types.rs 172-226 `StreamerBasicType::unmarshal`: the size is recomputed from the type;
an unknown type is an error; the product aborts when it leaves `i32` (debug build). -/
def Streamer.unmarshalBasicType : Rd Streamer := do
  let h ← Rd.header
  Rd.ensureMax h.vers rversStreamer2
  let e ← StreamerElement.unmarshal
  let et := e.etype.toI32
  let et := if 20 < et ∧ et < 40 then et - 20 else et
  match EnumNamed.fromI32 et with
  | none => Rd.fail .misc
  | some t =>
    match t.basicSize with
    | none => pure (.basicType e)
    | some n =>
      if 0 < e.arrLen then
        if n * e.arrLen < 2 ^ 31 then pure (.basicType { e with esize := n * e.arrLen }) else Rd.panic
      else pure (.basicType { e with esize := n })

/-- streamer_types.rs 459-475 `StreamerBasicPointer::unmarshal`. -/
def Streamer.unmarshalBasicPointer : Rd Streamer := do
  let h ← Rd.header
  Rd.ensureMax h.vers rversStreamer2
  let e ← StreamerElement.unmarshal
  let cvers ← Rd.i32
  let cname ← Rd.string
  let ccls ← Rd.string
  pure (.basicPointer e cvers cname ccls)

/-- streamer_types.rs 544-560: the set/multimap correction, after the name of the element. -/
def ESTLType.corrected (t : ESTLType) (name : Str) : ESTLType :=
  if t = .multimap ∨ t = .set then
    if (b! "std::multimap").isPrefixOf name || (b! "multimap").isPrefixOf name then .multimap
    else if (b! "std::set").isPrefixOf name || (b! "set").isPrefixOf name then .set
    else t
  else t

/-- streamer_types.rs 535-566 `StreamerSTL::unmarshal`; an unknown container type aborts. -/
def Streamer.unmarshalStl : Rd (StreamerElement × ESTLType × EnumT) := do
  let h ← Rd.header
  Rd.ensureMax h.vers rversStreamerStl
  let e ← StreamerElement.unmarshal
  let v ← Rd.i32
  match ESTLType.fromI32 v with
  | none => Rd.panic
  | some vt =>
    let c ← Rd.i32
    pure (e, vt.corrected e.named.name, EnumT.fromI32 c)

/-- streamer_types.rs 580-591 `StreamerSTLstring::unmarshal`. -/
def Streamer.unmarshalStlString : Rd Streamer := do
  let h ← Rd.header
  Rd.ensureMax h.vers rversStreamer2
  let s ← Streamer.unmarshalStl
  pure (.stlString s.1 s.2.1 s.2.2)

/-! ### StreamerInfo, rdict/mod.rs 141-359 -/

/-- rdict/mod.rs 224-232 `StreamerInfo` with its `Streamers` (141-146); the TObject and the lower
bound of the array of elements are always the defaults. -/
structure StreamerInfo where
  named : TNamed := {}
  chksum : Nat := 0
  clsver : Int := 0
  elems : List Streamer := []
  id : Nat := 0
  deriving DecidableEq, Repr

/-- rdict/mod.rs 279-283 `name`. -/
def StreamerInfo.name (s : StreamerInfo) : Str := s.named.name

/-- rdict/mod.rs 248-251, 217-219 `get`: the first element with that name. -/
def StreamerInfo.get (s : StreamerInfo) (name : Str) : Option Streamer :=
  s.elems.find? fun e => e.name = name

/-- rdict/mod.rs 171-210 `Streamers::marshal`, as `write_object_any` sees it. -/
def StreamerInfo.elemsObj (s : StreamerInfo) : WObj where
  cls := b! "TObjArray"
  addr := s.id
  marshal := do
    Wr.lenMinusOne
    TObjArray.marshal TObject.default none 0
      (s.elems.map fun e => { cls := e.cls, addr := e.element.id, marshal := e.marshal })

/-- rdict/mod.rs 324-357 `StreamerInfo::marshal`. -/
def StreamerInfo.marshal (s : StreamerInfo) : Wr Nat := do
  Wr.lenMinusOne
  Wr.framed rversStreamerInfo do
    Wr.drop s.named.marshal
    Wr.u32 s.chksum
    Wr.i32 s.clsver
    Wr.drop (Wr.objectAny s.elemsObj)

end Verif
