import Verif.Spec.RoundTrip
import Verif.Model.Refs
/-
Round trips of records that depend on their position in the buffer and on what was written before.
-/
namespace Verif

/-- A write buffer as `WBuffer::new(off)` gives it, after writing `pre`. -/
def WBuffer.holding (off : Nat) (pre : List Byte) : WBuffer :=
  { p := pre, c := pre.length, offset := off, refsP := [], refsS := [] }

/-- A read buffer over `data`, with the same offset, whose cursor is at `pos`. -/
def RBuffer.over (off : Nat) (data : List Byte) (pos : Nat) : RBuffer :=
  { p := data, c := pos, offset := off, refs := [], skip := none }

/-- `wr` appends some bytes after `pre` and returns their number; if they end below position `2^30`,
reading at the same place, whatever follows, gives `v` and ends exactly after them. -/
def RoundTripAt {α} (off : Nat) (pre : List Byte) (wr : Wr Nat) (rd : Rd α) (v : α) : Prop :=
  ∃ (bs : List Byte) (w' : WBuffer), wr (WBuffer.holding off pre) = .ok (bs.length, w') ∧
    w'.p = pre ++ bs ∧ w'.Consistent ∧
    (off + (pre ++ bs).length < 2 ^ 30 → ∀ post : List Byte, ∃ r' : RBuffer,
      rd (RBuffer.over off (pre ++ bs ++ post) pre.length) = .ok (v, r') ∧
      r'.c = (pre ++ bs).length ∧ r'.p = pre ++ bs ++ post)

/-- Something the writer can be asked to write by class tag: the class it reports, its address, its
`marshal`; and, on the reading side, the `unmarshal` of that class and the value expected. -/
structure Item (ο : Type) where
  cls : Str
  addr : Nat
  marshal : Wr Nat
  unmarshal : Rd ο
  value : ο

/-- What `write_object_any` gets. -/
def Item.obj {ο} (x : Item ο) : WObj := { cls := x.cls, addr := x.addr, marshal := x.marshal }

/-- The item can be read back: its record survives a round trip on its own, its class is registered
in `factory`, and its class name fits in what the reader accepts. -/
structure Item.Readable {ο} (factory : Str → Option (Rd ο)) (x : Item ο) : Prop where
  record : RoundTripNE x.marshal x.unmarshal x.value
  registered : factory x.cls = some x.unmarshal
  noNul : (0 : Byte) ∉ x.cls
  text : utf8 x.cls = true
  short : x.cls.length ≤ 80

/-- Writing the items one after the other; the count returned is the number of bytes. -/
def writeItems {ο} (xs : List (Item ο)) : Wr Nat :=
  Wr.counted (Wr.each (fun x => Wr.drop (Wr.objectAny x.obj)) xs)

/-- Reading as many objects. -/
def readItems {ο} (factory : Str → Option (Rd ο)) (n : Nat) : Rd (List (Option ο)) :=
  Rd.times n (Rd.objectAny factory)

end Verif
