import Verif.Model.TreeRecords
/-
What it means for reads to keep the cursor of a buffer inside its data.
-/
namespace Verif

/-- A declared header size, if any, is not negative. -/
def RBuffer.SkipOk (r : RBuffer) : Prop := ∀ s, r.skip = some s → 0 ≤ s

/-- Every successful run of `m` leaves the data alone and the cursor between its old position and
the end of the data (and does not declare a negative header size). -/
def StaysInside {α} (m : Rd α) : Prop :=
  ∀ r a r', r.SkipOk → r.c ≤ r.p.length → m r = .ok (a, r') →
    r'.p = r.p ∧ r.c ≤ r'.c ∧ r'.c ≤ r.p.length ∧ r'.SkipOk

/-- The reads of a fixed number of bytes. -/
inductive FixedRead : {α : Type} → Nat → Rd α → Prop
  | u8 : FixedRead 1 Rd.u8
  | u16 : FixedRead 2 Rd.u16
  | u32 : FixedRead 4 Rd.u32
  | u64 : FixedRead 8 Rd.u64
  | i8 : FixedRead 1 Rd.i8
  | i16 : FixedRead 2 Rd.i16
  | i32 : FixedRead 4 Rd.i32
  | i64 : FixedRead 8 Rd.i64
  | f32 : FixedRead 4 Rd.f32
  | f64 : FixedRead 8 Rd.f64
  | bool : FixedRead 1 Rd.bool
  | bytes (n : Nat) : FixedRead n (Rd.take n)

/-- The reads a user can compose: fixed-size reads, strings, headers, values of any streamable
type, any object behind a class tag, each named object class, loops, and sequences. -/
inductive Reading : {α : Type} → Rd α → Prop
  | fixed {α n} {m : Rd α} : FixedRead n m → Reading m
  | string : Reading Rd.string
  | header : Reading Rd.header
  | version (cls : Str) : Reading (Rd.skipVersion cls)
  | value (t : Ty) : Reading t.unmarshal
  | any (fuel : Nat) : Reading (readAny fuel)
  | object (fuel : Nat) (cls : Str) {m : Rd Obj} : factory fuel cls = some m → Reading m
  | tobject : Reading TObject.unmarshal
  | named : Reading TNamed.unmarshal
  | key : Reading Key.unmarshal
  | dir : Reading Dir.unmarshal
  | fileHeader : Reading FileHeader.unmarshal
  | segment : Reading FreeSegments.unmarshal
  | skipHeader : Reading Rd.doSkipHeader
  | declare (s : Option Int) (h : ∀ n, s = some n → 0 ≤ n) : Reading (Rd.setSkip s)
  | ret {α} (a : α) : Reading (pure a : Rd α)
  | fail {α} (e : Err) : Reading (Rd.fail e : Rd α)
  | times {α} (n : Nat) {m : Rd α} : Reading m → Reading (Rd.times n m)
  | seq {α β} {m : Rd α} {f : α → Rd β} : Reading m → (∀ a, Reading (f a)) → Reading (m >>= f)

end Verif
