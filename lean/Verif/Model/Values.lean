import Verif.Model.WBuffer
import Verif.Model.RBuffer
/-
The types that can be streamed without a class: primitives, strings, vectors, arrays
(rbytes/mod.rs 117-468).
-/
namespace Verif

/-- Types with both a `Marshaler` and an `Unmarshaler` in rbytes/mod.rs 117-468. -/
inductive Ty where
  | bool | i8 | i16 | i32 | i64 | u8 | u16 | u32 | u64 | f32 | f64
  | string
  | vec (t : Ty)
  | arr (n : Nat) (t : Ty)
  deriving DecidableEq, Repr

/-- Carrier of a type.  Integers are unbounded here and bounded by `Ty.Ok`; floats are bit
patterns; a fixed-size array is a list whose length is fixed by `Ty.Ok`. -/
abbrev Ty.Val : Ty → Type
  | .bool => Bool
  | .i8 | .i16 | .i32 | .i64 => Int
  | .u8 | .u16 | .u32 | .u64 | .f32 | .f64 => Nat
  | .string => Str
  | .vec t => List t.Val
  | .arr _ t => List t.Val

/-- The values a Rust variable of that type can hold and that fit the 32-bit counts of the
format. -/
def Ty.Ok : (t : Ty) → t.Val → Prop
  | .bool => fun _ => True
  | .i8 => InI 1
  | .i16 => InI 2
  | .i32 => InI 4
  | .i64 => InI 8
  | .u8 => InU 1
  | .u16 => InU 2
  | .u32 => InU 4
  | .u64 => InU 8
  | .f32 => InU 4
  | .f64 => InU 8
  | .string => fun s : Str => s.length < 2 ^ 31 ∧ utf8 s = true
  | .vec t => fun l : List t.Val => l.length < 2 ^ 31 ∧ ∀ v ∈ l, t.Ok v
  | .arr n t => fun l : List t.Val => l.length = n ∧ ∀ v ∈ l, t.Ok v

/-- `Ty.Ok` can be computed. -/
def Ty.decOk : (t : Ty) → (v : t.Val) → Decidable (t.Ok v)
  | .bool, _ => isTrue trivial
  | .i8, v => decInI 1 v
  | .i16, v => decInI 2 v
  | .i32, v => decInI 4 v
  | .i64, v => decInI 8 v
  | .u8, v => decInU 1 v
  | .u16, v => decInU 2 v
  | .u32, v => decInU 4 v
  | .u64, v => decInU 8 v
  | .f32, v => decInU 4 v
  | .f64, v => decInU 8 v
  | .string, s =>
    inferInstanceAs (Decidable (List.length (α := Byte) s < 2 ^ 31 ∧ utf8 s = true))
  | .vec t, l =>
    have : DecidablePred t.Ok := t.decOk
    inferInstanceAs (Decidable (List.length (α := t.Val) l < 2 ^ 31 ∧
      ∀ v ∈ (show List t.Val from l), t.Ok v))
  | .arr n t, l =>
    have : DecidablePred t.Ok := t.decOk
    inferInstanceAs (Decidable (List.length (α := t.Val) l = n ∧
      ∀ v ∈ (show List t.Val from l), t.Ok v))

instance (t : Ty) (v : t.Val) : Decidable (t.Ok v) := t.decOk v

/-- rbytes/mod.rs 330-337 `Marshaler for Vec<T>` (`len() as i32`, then the items). -/
def Wr.vec {α} (f : α → Wr Unit) (l : List α) : Wr Unit := do
  Wr.i32 (toSigned 4 (l.length % 2 ^ 32))
  Wr.each f l

/-- `Marshaler::marshal` without the returned count: rbytes/mod.rs 148-152 (primitives),
279-284 (String), 330-337 (Vec), 462-468 (arrays). -/
def Ty.put : (t : Ty) → t.Val → Wr Unit
  | .bool => Wr.bool
  | .i8 => Wr.i8
  | .i16 => Wr.i16
  | .i32 => Wr.i32
  | .i64 => Wr.i64
  | .u8 => Wr.u8
  | .u16 => Wr.u16
  | .u32 => Wr.u32
  | .u64 => Wr.u64
  | .f32 => Wr.f32
  | .f64 => Wr.f64
  | .string => Wr.string
  | .vec t => Wr.vec t.put
  | .arr n t => fun l : List t.Val => Wr.each t.put (l.take n)

/-- `Marshaler::marshal`: the value and the returned count `w.pos() - beg`. -/
def Ty.marshal (t : Ty) (v : t.Val) : Wr Nat := Wr.counted (t.put v)

/-- rbytes/mod.rs 265-270 `Unmarshaler for String`. -/
def Rd.stringItem : Rd Str := do
  Rd.doSkipHeader
  Rd.string

/-- rbytes/mod.rs 296-313 `Unmarshaler for Vec<T>` on an empty vector.
`reserve(size as usize)` aborts on a negative size. -/
def Rd.vec {α} (m : Rd α) : Rd (List α) := do
  Rd.doSkipHeader
  let size ← Rd.i32
  if size < 0 then Rd.panic
  else
    Rd.setSkip none
    Rd.times size.toNat m

/-- `read_object_into::<T>()`, i.e. `Unmarshaler::unmarshal` on a default value:
rbytes/mod.rs 119-122 (primitives), 265-270 (String), 296-313 (Vec), 427-441 (arrays). -/
def Ty.unmarshal : (t : Ty) → Rd t.Val
  | .bool => Rd.bool
  | .i8 => Rd.i8
  | .i16 => Rd.i16
  | .i32 => Rd.i32
  | .i64 => Rd.i64
  | .u8 => Rd.u8
  | .u16 => Rd.u16
  | .u32 => Rd.u32
  | .u64 => Rd.u64
  | .f32 => Rd.f32
  | .f64 => Rd.f64
  | .string => Rd.stringItem
  | .vec t => Rd.vec t.unmarshal
  | .arr n t => Rd.times n t.unmarshal

end Verif
