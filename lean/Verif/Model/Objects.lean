import Verif.Model.Values
/-
Small ROOT objects: TObject, TNamed, the TAtt* records, ROOT::TIOFeatures, TObjString, and the
colour and element-type enumerations.
-/
namespace Verif

/-! ### Versions, rvers.rs -/

/-- rvers.rs 2. -/
def rversROOT : Int := 63002
/-- rvers.rs `ATT_FILL`, `ATT_LINE`, `ATT_MARKER`. -/
def rversAtt : Int := 2
/-- rvers.rs `NAMED`. -/
def rversNamed : Int := 1
/-- rvers.rs `OBJECT`. -/
def rversObject : Int := 1
/-- rvers.rs `OBJ_STRING`. -/
def rversObjString : Int := 1
/-- rvers.rs `ROOT_IOFEATURES`. -/
def rversIoFeatures : Int := 1

/-! ### Colours, rcolors/mod.rs -/

/-- rcolors/mod.rs 39-58 `ColorNamed`. -/
inductive ColorNamed where
  | white | black | yellow | green | cyan | blue | magenta | red | orange | spring | teal | azure
  | violet | pink | gray
  deriving DecidableEq, Repr

/-- Discriminants of rcolors/mod.rs 42-56. -/
def ColorNamed.table : List (ColorNamed × Int) :=
  [(.white, 0), (.black, 1), (.yellow, 400), (.green, 416), (.cyan, 432), (.blue, 600),
   (.magenta, 616), (.red, 632), (.orange, 800), (.spring, 820), (.teal, 840), (.azure, 860),
   (.violet, 880), (.pink, 900), (.gray, 920)]

/-- Derived `ToPrimitive` of rcolors/mod.rs 38. -/
def ColorNamed.code (c : ColorNamed) : Int :=
  match ColorNamed.table.find? (·.1 = c) with
  | some p => p.2
  | none => 0

/-- rcolors/mod.rs 60-63 `ColorNamed::from_i16` (derived `FromPrimitive`). -/
def ColorNamed.fromI16 (i : Int) : Option ColorNamed :=
  (ColorNamed.table.find? (·.2 = i)).map (·.1)

/-- rcolors/mod.rs 11-15 `Color`. -/
inductive Color where
  | named (c : ColorNamed)
  | int (i : Int)
  deriving DecidableEq, Repr

/-- rcolors/mod.rs 24-29 `Color::from_i16`. -/
def Color.fromI16 (i : Int) : Color :=
  match ColorNamed.fromI16 i with
  | some c => .named c
  | none => .int i

/-- rcolors/mod.rs 31-36 `Color::to_i16`. -/
def Color.toI16 : Color → Int
  | .named c => c.code
  | .int i => i

/-! ### TObject, rbase/object.rs -/

/-- rbase/object.rs 8-12 `Object`. -/
structure TObject where
  id : Nat
  bits : Nat
  deriving DecidableEq, Repr

/-- rbase/consts.rs `K_IS_ON_HEAP`. -/
def kIsOnHeap : Nat := 0x01000000
/-- rbase/consts.rs `K_IS_REFERENCED`. -/
def kIsReferenced : Nat := 1 <<< 4

/-- rbase/object.rs 25-32 `Default`. -/
def TObject.default : TObject := { id := 0, bits := 0x3000000 }

/-- rbase/object.rs 15-17 `test_bits`. -/
def TObject.testBits (o : TObject) (bits : Nat) : Bool := o.bits &&& bits ≠ 0

/-- rbase/object.rs 34-48 `unmarshal`. -/
def TObject.unmarshal : Rd TObject := do
  Rd.skipVersion []
  let id ← Rd.u32
  let bits ← Rd.u32
  let o : TObject := { id := id, bits := bits ||| kIsOnHeap }
  if o.testBits kIsReferenced then
    let _ ← Rd.u16
    pure o
  else pure o

/-- rbase/object.rs 50-68 `marshal`. -/
def TObject.marshal (o : TObject) : Wr Nat := Wr.counted do
  Wr.u16 (wrapI 2 rversObject)
  if o.testBits kIsReferenced then
    Wr.u32 (o.id &&& 0xffffff)
    Wr.u32 o.bits
    Wr.u16 0
  else
    Wr.u32 o.id
    Wr.u32 o.bits

/-! ### TNamed, rbase/named.rs -/

/-- rbase/named.rs 15-19 `Named`. -/
structure TNamed where
  obj : TObject := TObject.default
  name : Str := []
  title : Str := []
  deriving DecidableEq, Repr

/-- rbase/named.rs 49-67 `unmarshal`; `check_header` (rbuffer.rs 486-488) does nothing, and the
version is not checked. -/
def TNamed.unmarshal : Rd TNamed := do
  let _ ← Rd.header
  let obj ← TObject.unmarshal
  let name ← Rd.string
  let title ← Rd.string
  pure { obj := obj, name := name, title := title }

/-- rbase/named.rs 69-88 `marshal`. -/
def TNamed.marshal (n : TNamed) : Wr Nat := do
  Wr.lenMinusOne
  Wr.framed rversNamed do
    Wr.drop n.obj.marshal
    Wr.string n.name
    Wr.string n.title

/-! ### TAttLine, TAttFill, TAttMarker -/

/-- rbase/attline.rs 10-14 `AttLine`. -/
structure AttLine where
  color : Color
  style : Int
  width : Int
  deriving DecidableEq, Repr

/-- rbase/attline.rs 16-24 `Default` (`Blue + 2`). -/
def AttLine.default : AttLine := { color := .int 602, style := 1, width := 1 }

/-- rbase/attline.rs 26-46 `unmarshal`. -/
def AttLine.unmarshal : Rd AttLine := do
  let h ← Rd.header
  Rd.ensureMax h.vers rversAtt
  let color ← Rd.i16
  let style ← Rd.i16
  let width ← Rd.i16
  pure { color := Color.fromI16 color, style := style, width := width }

/-- rbase/attline.rs 48-57 `marshal`. -/
def AttLine.marshal (a : AttLine) : Wr Nat :=
  Wr.framed rversAtt do
    Wr.i16 a.color.toI16
    Wr.i16 a.style
    Wr.i16 a.width

/-- rbase/attfill.rs 11-14 `AttFill`. -/
structure AttFill where
  color : Color
  style : Int
  deriving DecidableEq, Repr

/-- rbase/attfill.rs 16-23 `Default`. -/
def AttFill.default : AttFill := { color := .named .white, style := 1001 }

/-- rbase/attfill.rs 25-45 `unmarshal`. -/
def AttFill.unmarshal : Rd AttFill := do
  let h ← Rd.header
  Rd.ensureMax h.vers rversAtt
  let color ← Rd.i16
  let style ← Rd.i16
  pure { color := Color.fromI16 color, style := style }

/-- rbase/attfill.rs 47-54 `marshal`. -/
def AttFill.marshal (a : AttFill) : Wr Nat :=
  Wr.framed rversAtt do
    Wr.i16 a.color.toI16
    Wr.i16 a.style

/-- rbase/attmarker.rs 10-14 `AttMarker`; `width` is the bit pattern of an `f32`. -/
structure AttMarker where
  color : Color
  style : Int
  width : Nat
  deriving DecidableEq, Repr

/-- rbase/attmarker.rs 16-24 `Default`; `1.0f32` is `0x3F800000`. -/
def AttMarker.default : AttMarker := { color := .int 1, style := 1, width := 0x3F800000 }

/-- rbase/attmarker.rs 26-45 `unmarshal`. -/
def AttMarker.unmarshal : Rd AttMarker := do
  let h ← Rd.header
  Rd.ensureMax h.vers rversAtt
  let color ← Rd.i16
  let style ← Rd.i16
  let width ← Rd.f32
  pure { color := Color.fromI16 color, style := style, width := width }

/-- rbase/attmarker.rs 47-56 `marshal`. -/
def AttMarker.marshal (a : AttMarker) : Wr Nat :=
  Wr.framed rversAtt do
    Wr.i16 a.color.toI16
    Wr.i16 a.style
    Wr.f32 a.width

/-! ### TIOFeatures, rcont/tio_features.rs -/

/-- tio_features.rs 7-31 `unmarshal`. -/
def TioFeatures.unmarshal : Rd Nat := do
  let h ← Rd.header
  Rd.ensureMax h.vers rversIoFeatures
  let b ← Rd.u8
  if b ≠ 0 then
    let _ ← Rd.take 3
    Rd.u8
  else pure 0

/-- tio_features.rs 33-45 `marshal`. -/
def TioFeatures.marshal (v : Nat) : Wr Nat :=
  Wr.framed rversIoFeatures do
    if v ≠ 0 then Wr.bytes [0x1a, 0xa1, 0x2f, 0x10]
    Wr.u8 v

/-! ### TObjString, rbase/objstring.rs (read only: `marshal` is `todo!()`) -/

/-- rbase/objstring.rs 33-51 `unmarshal`. -/
def TObjString.unmarshal : Rd (TObject × Str) := do
  let h ← Rd.header
  Rd.ensureMax h.vers rversObjString
  let obj ← TObject.unmarshal
  let s ← Rd.string
  pure (obj, s)

/-- rbase/objstring.rs 19-23 `marshal`. -/
def TObjString.marshal : Wr Nat := Wr.panic

/-! ### Element types, rmeta/consts.rs -/

/-- rmeta/consts.rs 51-137 `EnumNamed`. -/
inductive EnumNamed where
  | base | char | short | int | long | float | counter | charStar | double | double32 | legacyChar
  | uChar | uShort | uInt | uLong | bits | long64 | uLong64 | bool | float16 | offsetL | offsetP
  | offsetP16 | object | any | objectp | objectP | tString | tObject | tNamed | anyp | anyP
  | anyPnoVT | stlp | skip | skipL | skipP | conv | convL | convP | stl | stlString | streamer
  | streamLoop | cache | artificial | cacheNew | cacheDelete | needObjectForVirtualBaseClass
  | missing
  deriving DecidableEq, Repr

/-- Discriminants of rmeta/consts.rs 51-137. -/
def EnumNamed.table : List (EnumNamed × Int) :=
  [(.base, 0), (.char, 1), (.short, 2), (.int, 3), (.long, 4), (.float, 5), (.counter, 6),
   (.charStar, 7), (.double, 8), (.double32, 9), (.legacyChar, 10), (.uChar, 11), (.uShort, 12),
   (.uInt, 13), (.uLong, 14), (.bits, 15), (.long64, 16), (.uLong64, 17), (.bool, 18),
   (.float16, 19), (.offsetL, 20), (.offsetP, 40), (.offsetP16, 56), (.object, 61), (.any, 62),
   (.objectp, 63), (.objectP, 64), (.tString, 65), (.tObject, 66), (.tNamed, 67), (.anyp, 68),
   (.anyP, 69), (.anyPnoVT, 70), (.stlp, 71), (.skip, 100), (.skipL, 120), (.skipP, 140),
   (.conv, 200), (.convL, 220), (.convP, 240), (.stl, 300), (.stlString, 365), (.streamer, 500),
   (.streamLoop, 501), (.cache, 600), (.artificial, 1000), (.cacheNew, 1001),
   (.cacheDelete, 1002), (.needObjectForVirtualBaseClass, 99997), (.missing, 99999)]

/-- rmeta/consts.rs 143-145 `EnumNamed::to_i32` (derived `ToPrimitive`). -/
def EnumNamed.code (e : EnumNamed) : Int :=
  match EnumNamed.table.find? (·.1 = e) with
  | some p => p.2
  | none => 0

/-- rmeta/consts.rs 139-141 `EnumNamed::from_i32` (derived `FromPrimitive`). -/
def EnumNamed.fromI32 (i : Int) : Option EnumNamed :=
  (EnumNamed.table.find? (·.2 = i)).map (·.1)

/-- rmeta/consts.rs 16-20 `Enum`. -/
inductive EnumT where
  | named (e : EnumNamed)
  | int (i : Int)
  deriving DecidableEq, Repr

/-- rmeta/consts.rs 35-40 `Enum::from_i32`. -/
def EnumT.fromI32 (i : Int) : EnumT :=
  match EnumNamed.fromI32 i with
  | some e => .named e
  | none => .int i

/-- rmeta/consts.rs 42-49 `Enum::to_i32`. -/
def EnumT.toI32 : EnumT → Int
  | .named e => e.code
  | .int i => i

end Verif
