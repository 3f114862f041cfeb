import Verif.Model.Bytes
/-
The read buffer, rbytes/rbuffer.rs.
-/
namespace Verif

/-- rbytes/rbuffer.rs 17-20, 101-107 `Rbuff`/`RBuffer`.  `refs` maps positions to the class whose
factory function was registered there (rbuffer.rs 92-95); `skip` is `skip_header`. -/
structure RBuffer where
  p : List Byte := []
  c : Nat := 0
  offset : Nat := 0
  refs : List (Nat × Str) := []
  skip : Option Int := none
  deriving DecidableEq, Repr

/-- rbuffer.rs 110-117 `RBuffer::new`. -/
def RBuffer.new (data : List Byte) (offset : Nat) : RBuffer := { p := data, offset := offset }

/-- A call that takes `&mut RBuffer`. -/
def Rd (α : Type) := RBuffer → Res (α × RBuffer)

instance : Monad Rd where
  pure a := fun r => .ok (a, r)
  bind m f := fun r =>
    match m r with
    | .ok (a, r') => f a r'
    | .error e => .error e

namespace Rd

/-- `return Err(e)`. -/
def fail {α} (e : Err) : Rd α := fun _ => .error (.err e)

/-- `panic!` and friends. -/
def panic {α} : Rd α := fun _ => .error .panic

/-- rbuffer.rs 29-45 `extract_const_n`/`extract_as_array`/`extract_n`: the slice
`p[c .. c+n]` aborts when it is not inside the data; then the cursor moves. -/
def take (n : Nat) : Rd (List Byte) := fun r =>
  if r.c + n ≤ r.p.length then .ok ((r.p.drop r.c).take n, { r with c := r.c + n })
  else .error .panic

/-- First piece of `buf.split(|a| *a == 0)`. -/
def untilNul : List Byte → List Byte
  | [] => []
  | b :: bs => if b = 0 then [] else b :: untilNul bs

/-- rbuffer.rs 47-59 `extract_until`: looks at no more than `n` bytes, and always advances one
byte past the piece, also when there is no terminator. -/
def takeUntilNul (n : Nat) : Rd (List Byte) := fun r =>
  let m := min (r.c + n) r.p.length
  if r.c ≤ m then
    let piece := untilNul ((r.p.drop r.c).take (m - r.c))
    .ok (piece, { r with c := r.c + piece.length + 1 })
  else .error .panic

/-- rbuffer.rs 124 `len` (may be negative). -/
def len : Rd Int := fun r => .ok ((r.p.length : Int) - r.c, r)

/-- rbuffer.rs 132 `pos`. -/
def pos : Rd Nat := fun r => .ok (r.c + r.offset, r)

/-- rbuffer.rs 136-140 `set_pos`. -/
def setPos (pos : Int) : Rd Unit := fun r =>
  if 0 ≤ pos - r.offset then .ok ((), { r with c := (pos - r.offset).toNat })
  else .error .panic

/-- rbuffer.rs 142-145 `skip`. -/
def skipBy (s : Int) : Rd Unit := fun r => setPos ((r.c + r.offset : Nat) + s) r

/-- rbuffer.rs 147-150 `rewind`. -/
def rewind (s : Int) : Rd Unit := fun r => setPos ((r.c + r.offset : Nat) - s) r

/-- Unsigned big-endian integer of `k` bytes. -/
def uint (k : Nat) : Rd Nat := do
  let b ← take k
  pure (beNat b)

/-- Signed big-endian integer of `k` bytes. -/
def sint (k : Nat) : Rd Int := do
  let b ← take k
  pure (toSigned k (beNat b))

/-- rbuffer.rs 153 `read_u8`. -/
def u8 : Rd Nat := uint 1
/-- rbuffer.rs 183 `read_u16`. -/
def u16 : Rd Nat := uint 2
/-- rbuffer.rs 215 `read_u32`. -/
def u32 : Rd Nat := uint 4
/-- rbuffer.rs 234 `read_u64`. -/
def u64 : Rd Nat := uint 8
/-- rbuffer.rs 173 `read_i8`. -/
def i8 : Rd Int := sint 1
/-- rbuffer.rs 189 `read_i16`. -/
def i16 : Rd Int := sint 2
/-- rbuffer.rs 202 `read_i32`. -/
def i32 : Rd Int := sint 4
/-- rbuffer.rs 221 `read_i64`. -/
def i64 : Rd Int := sint 8
/-- rbuffer.rs 246 `read_f32` (bit pattern). -/
def f32 : Rd Nat := uint 4
/-- rbuffer.rs 240 `read_f64` (bit pattern). -/
def f64 : Rd Nat := uint 8
/-- rbuffer.rs 179 `read_bool`. -/
def bool : Rd Bool := do
  let v ← i8
  pure (v != 0)

/-- The loops `for _ in 0..n { v.push(read()?) }`. -/
def times {α} (n : Nat) (m : Rd α) : Rd (List α) :=
  match n with
  | 0 => pure []
  | n + 1 => do
    let a ← m
    let as ← times n m
    pure (a :: as)

/-- rbuffer.rs 429-453 `read_string`; invalid UTF-8 is silently read as the empty string. -/
def string : Rd Str := do
  let b ← u8
  let n ← if b = 255 then u32 else pure b
  if n = 0 then pure []
  else
    let buf ← take n
    if utf8 buf then pure buf else pure []

/-- rbuffer.rs 455-462 `read_cstring`. -/
def cstring (n : Nat) : Rd Str := do
  let buf ← takeUntilNul n
  if utf8 buf then pure buf else pure []

/-- rbytes/mod.rs 22-31 `Header`, the fields the reader fills. -/
structure RHeader where
  pos : Nat
  len : Nat
  vers : Int
  deriving DecidableEq, Repr

/-- rbuffer.rs 464-484 `read_header`. `bcnt & !kByteCountMask` on an `i64` that holds a `u32` is
the conjunction with `0xBFFFFFFF`. -/
def header : Rd RHeader := do
  let p ← pos
  let bcnt ← u32
  if bcnt &&& kByteCountMask ≠ 0 then
    let v ← u16
    pure { pos := p, len := bcnt &&& 0xBFFFFFFF, vers := toSigned 2 v }
  else
    setPos p
    let v ← u16
    pure { pos := p, len := 0, vers := toSigned 2 v }

/-- rbuffer.rs 490-505 `skip_version`: bit 30 of the sign-extended 16-bit version is set exactly
when the version is negative. `cls` is the class argument. -/
def skipVersion (cls : Str) : Rd Unit := do
  let v ← i16
  if v < 0 then
    let _ ← u16
    let _ ← u16
    pure ()
  if 1 < v ∨ cls = [] then pure () else panic

/-- rbuffer.rs 506 `set_skip_header`. -/
def setSkip (s : Option Int) : Rd Unit := fun r => .ok ((), { r with skip := s })

/-- rbuffer.rs 513-534 `do_skip_header`. -/
def doSkipHeader : Rd Unit := fun r =>
  match r.skip with
  | none => .ok ((), r)
  | some s =>
    if (r.p.length : Int) - r.c < s then .ok ((), r)
    else if 1 < (r.p.length : Int) - r.c ∧ 1 < s then
      (do
        let b ← u8
        rewind 1
        if b ≠ 64 then pure () else skipBy s) r
    else skipBy s r

/-- rbytes/mod.rs 506-519 `ensure_maximum_supported_version`. -/
def ensureMax (read max : Int) : Rd Unit :=
  if max < read then fail .versionTooHigh else pure ()

/-- rbytes/mod.rs 521-534 `ensure_minimum_supported_version` (note `<=`). -/
def ensureMin (read min : Int) : Rd Unit :=
  if read ≤ min then fail .versionTooLow else pure ()

end Rd

end Verif
