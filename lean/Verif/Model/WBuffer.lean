import Verif.Model.Bytes
/-
The write buffer, rbytes/wbuffer.rs.
-/
namespace Verif

/-- rbytes/wbuffer.rs 8-34 `Wbuff`/`WBuffer`.  `p` is the data, `c` the counter that Rust keeps
beside it, `offset` the position of the first byte in the enclosing record, `refsP`/`refsS` the
tables of already written objects (by address) and classes (by name). The hash maps are
association lists, newest entry first. -/
structure WBuffer where
  p : List Byte := []
  c : Nat := 0
  offset : Nat := 0
  refsP : List (Nat × Nat) := []
  refsS : List (Str × Nat) := []
  deriving DecidableEq, Repr

/-- A call that takes `&mut WBuffer`. -/
def Wr (α : Type) := WBuffer → Res (α × WBuffer)

instance : Monad Wr where
  pure a := fun w => .ok (a, w)
  bind m f := fun w =>
    match m w with
    | .ok (a, w') => f a w'
    | .error e => .error e

namespace Wr

/-- `panic!` and friends. -/
def panic {α} : Wr α := fun _ => .error .panic

/-- `return Err(e)`. -/
def fail {α} (e : Err) : Wr α := fun _ => .error (.err e)

/-- wbuffer.rs 15-19 `Wbuff::write_array_u8`: append. -/
def bytes (bs : List Byte) : Wr Unit := fun w =>
  .ok ((), { w with p := w.p ++ bs, c := w.c + bs.length })

/-- wbuffer.rs 354 `pos`. -/
def pos : Wr Nat := fun w => .ok (w.c + w.offset, w)

/-- wbuffer.rs 229 `len`. -/
def len : Wr Nat := fun w => .ok (w.p.length, w)

/-- `let len = w.len() - 1;` (named.rs 71, wbuffer.rs 196, 239, leaf.rs 373, tbranch.rs 659):
debug builds abort on an empty buffer. -/
def lenMinusOne : Wr Unit := fun w => if w.p.length = 0 then .error .panic else .ok ((), w)

/-- wbuffer.rs 78 `write_u8`. -/
def u8 (v : Nat) : Wr Unit := bytes (beBytes 1 v)
/-- wbuffer.rs 74 `write_u16`. -/
def u16 (v : Nat) : Wr Unit := bytes (beBytes 2 v)
/-- wbuffer.rs 54 `write_u32`. -/
def u32 (v : Nat) : Wr Unit := bytes (beBytes 4 v)
/-- wbuffer.rs 58 `write_u64`. -/
def u64 (v : Nat) : Wr Unit := bytes (beBytes 8 v)
/-- wbuffer.rs 82 `write_i8`. -/
def i8 (v : Int) : Wr Unit := bytes (beBytes 1 (wrapI 1 v))
/-- wbuffer.rs 70 `write_i16`. -/
def i16 (v : Int) : Wr Unit := bytes (beBytes 2 (wrapI 2 v))
/-- wbuffer.rs 45 `write_i32`. -/
def i32 (v : Int) : Wr Unit := bytes (beBytes 4 (wrapI 4 v))
/-- wbuffer.rs 49-52 `write_i64` (cast to `u64` first). -/
def i64 (v : Int) : Wr Unit := bytes (beBytes 8 (wrapI 8 v))
/-- wbuffer.rs 62 `write_f32`, on the bit pattern. -/
def f32 (v : Nat) : Wr Unit := bytes (beBytes 4 v)
/-- wbuffer.rs 66 `write_f64`, on the bit pattern. -/
def f64 (v : Nat) : Wr Unit := bytes (beBytes 8 v)
/-- wbuffer.rs 86 `write_bool`. -/
def bool (v : Bool) : Wr Unit := bytes (beBytes 1 (if v then 1 else 0))

/-- The loops of wbuffer.rs 90-137 (`write_array_*`). -/
def each {α} (f : α → Wr Unit) : List α → Wr Unit
  | [] => pure ()
  | a :: as => do f a; each f as

/-- wbuffer.rs 139-153 `write_string`: `len as i32` may be negative for huge strings. -/
def string (s : Str) : Wr Unit := do
  let len := toSigned 4 (s.length % 2 ^ 32)
  if len < 255 then
    u8 (wrapI 1 len)
    if 0 < len then bytes s
  else
    u8 255
    u32 (wrapI 4 len)
    bytes s

/-- wbuffer.rs 299-302 `write_cstring`. -/
def cstring (s : Str) : Wr Unit := do
  bytes s
  u8 0

/-- wbuffer.rs 21-25 and 180-183 `write_in_place`: absolute position, minus the offset; aborts
when the range is not inside the data (the `usize` subtraction aborts in debug builds). -/
def inPlace (bs : List Byte) (pos : Nat) : Wr Unit := fun w =>
  if pos < w.offset then .error .panic
  else if pos - w.offset + bs.length ≤ w.p.length then
    .ok ((), { w with
      p := w.p.take (pos - w.offset) ++ bs ++ w.p.drop (pos - w.offset + bs.length) })
  else .error .panic

/-- The part of rbytes/mod.rs 22-31 `Header` that the writer uses. -/
structure WHeader where
  pos : Nat
  vers : Int

/-- wbuffer.rs 155-165 `write_header`. -/
def header (vers : Int) : Wr WHeader := do
  let p ← pos
  u32 0
  u16 (wrapI 2 vers)
  pure { pos := p, vers := vers }

/-- wbuffer.rs 167-178 `set_header`.  `cur - hdr.pos - 4` is never negative since the header was
written in the same buffer before. -/
def setHeader (h : WHeader) : Wr Nat := do
  let cur ← pos
  let cnt := cur - h.pos - 4
  inPlace (beBytes 4 (cnt ||| kByteCountMask)) h.pos
  pure (cnt + 4)

/-- wbuffer.rs 185-188 `write_object_nil`. -/
def objectNil : Wr Nat := do
  u32 0
  pure 0

/-- The recurring shape "`let beg = w.pos(); ..; Ok(w.pos() - beg)`". -/
def counted (m : Wr Unit) : Wr Nat := do
  let beg ← pos
  m
  let e ← pos
  pure (e - beg)

/-- The recurring shape "`let hdr = w.write_header(class, vers)?; ..; w.set_header(hdr)`". -/
def framed (vers : Int) (body : Wr Unit) : Wr Nat := do
  let h ← header vers
  body
  setHeader h

/-- `m?;`: run and ignore the returned count. -/
def drop {α} (m : Wr α) : Wr Unit := do
  let _ ← m
  pure ()

end Wr

/-- wbuffer.rs 324-331 `WBuffer::new`. -/
def WBuffer.new (offset : Nat) : WBuffer := { offset := offset }

/-- wbuffer.rs 317-320 `clear`: data and counter only, the reference tables stay. -/
def WBuffer.clear (w : WBuffer) : WBuffer := { w with p := [], c := 0 }

end Verif
