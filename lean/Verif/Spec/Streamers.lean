import Verif.Model.Streamers
/-
Which streamer records the format can hold, and what is expected back.
-/
namespace Verif

/-- A string that fits the format. -/
def TextOk (s : Str) : Prop := s.length < 2 ^ 29 - 30 ∧ utf8 s = true

instance decTextOk (s : Str) : Decidable (TextOk s) := inferInstanceAs (Decidable (_ ∧ _))

/-- The flags of an object the library creates or has read: on-heap flag set, not referenced. -/
def TObject.Plain (o : TObject) : Prop :=
  o.id < 2 ^ 32 ∧ o.bits < 2 ^ 32 ∧ o.bits.testBit 24 = true ∧ o.bits.testBit 4 = false

instance TObject.decPlain (o : TObject) : Decidable o.Plain :=
  inferInstanceAs (Decidable (_ ∧ _ ∧ _ ∧ _))

/-- A name and a title that fit the format. -/
def TNamed.Fits (n : TNamed) : Prop := n.obj.Plain ∧ TextOk n.name ∧ TextOk n.title

instance TNamed.decFits (n : TNamed) : Decidable n.Fits := inferInstanceAs (Decidable (_ ∧ _ ∧ _))

/-- The type code stored for a type: base classes `TNamed` and `TObject` are stored as any other base
class. -/
def EnumT.stored (t : EnumT) : EnumT :=
  if t = .named .tNamed ∨ t = .named .tObject then .named .base else t

/-- A title the reader accepts: a `[` (91) can only be at its start, without a comma (44) after it
(the text would be taken for a range). -/
def TitleOk (s : Str) : Prop :=
  (91 : Byte) ∉ s ∨ ∃ t, s = 91 :: t ∧ (91 : Byte) ∉ t ∧ (44 : Byte) ∉ t

/-- An element the format can hold: numbers fit, five maximal indices, the type is represented by
its name when its code has one (an unsigned char called `bool` is a `bool`), no range. -/
structure StreamerElement.Storable (e : StreamerElement) : Prop where
  named : e.named.Fits
  noRange : TitleOk e.named.title
  etype : EnumT.fromI32 e.etype.toI32 = e.etype
  etypeFits : InI 4 e.etype.toI32
  notBool : e.etype = .named .uChar → e.ename ≠ b! "Bool_t" ∧ e.ename ≠ b! "bool"
  esize : InI 4 e.esize
  arrLen : InI 4 e.arrLen
  arrDim : InI 4 e.arrDim
  five : e.maxIdx.length = 5
  maxIdx : ∀ i ∈ e.maxIdx, InI 4 i
  ename : TextOk e.ename
  xmin : e.xmin = 0
  xmax : e.xmax = 0
  factor : e.factor = 0

/-- The number of bytes of a basic type (`None` for the others). -/
def basicTypeSize (t : EnumNamed) : Option Int :=
  match t with
  | .bool | .uChar | .char => some 1
  | .short | .uShort => some 2
  | .bits | .uInt | .int | .counter | .float | .float16 => some 4
  | .uLong | .uLong64 | .long | .long64 | .double | .double32 | .charStar => some 8
  | _ => none

/-- The basic type of a code; the code of an array of it is larger by 20. -/
def basicKind (code : Int) : Option EnumNamed :=
  EnumNamed.fromI32 (if 20 < code ∧ code < 40 then code - 20 else code)

/-- The size the reader computes for a member of basic type: that of the type, times the number of
elements of an array. -/
def StreamerElement.basicSize (e : StreamerElement) : Int :=
  match (basicKind e.etype.stored.toI32).bind basicTypeSize with
  | some n => if 0 < e.arrLen then n * e.arrLen else n
  | none => e.esize

/-- An element record the writer can write and the reader accepts. -/
def Streamer.Storable : Streamer → Prop
  | .stlString .. => False
  | .string e | .objectAny e | .object e | .objectPointer e => e.Storable
  | .basicType e => e.Storable ∧ (basicKind e.etype.stored.toI32).isSome ∧ InI 4 e.basicSize
  | .basicPointer e cvers cname ccls => e.Storable ∧ InI 4 cvers ∧ TextOk cname ∧ TextOk ccls
  | .stl e vtype ctype => e.Storable ∧ EnumT.fromI32 ctype.toI32 = ctype ∧ InI 4 ctype.toI32 ∧
      -- a set or multimap is corrected after its name
      ((vtype = .multimap ∨ vtype = .set) → vtype.corrected e.named.name = vtype)
  | .base e vbase => e.Storable ∧ InI 4 vbase

/-- The element expected back: without the number that identifies it in the writing process, with
the stored type. -/
def StreamerElement.expected (e : StreamerElement) : StreamerElement :=
  { e with id := 0, etype := e.etype.stored }

/-- The element record expected back; for a basic type the size is that of the type. -/
def Streamer.expected : Streamer → Streamer
  | .string e => .string e.expected
  | .stlString e v c => .stlString e.expected v c
  | .basicType e => .basicType { e.expected with esize := e.basicSize }
  | .basicPointer e v n c => .basicPointer e.expected v n c
  | .objectAny e => .objectAny e.expected
  | .stl e v c => .stl e.expected v c
  | .base e v => .base e.expected v
  | .object e => .object e.expected
  | .objectPointer e => .objectPointer e.expected

/-- A class record the format can hold; all the identification numbers in it differ. -/
structure StreamerInfo.Storable (s : StreamerInfo) : Prop where
  named : s.named.Fits
  chksum : InU 4 s.chksum
  clsver : InI 4 s.clsver
  elems : ∀ e ∈ s.elems, e.Storable
  few : s.elems.length < 2 ^ 31
  distinct : (s.id :: s.elems.map fun e => e.element.id).Nodup

/-- The record expected back. -/
def StreamerInfo.expected (s : StreamerInfo) : StreamerInfo :=
  { s with id := 0, elems := s.elems.map Streamer.expected }

end Verif
