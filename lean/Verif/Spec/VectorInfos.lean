import Verif.Model.TreeWrite
/-
What the class record of a vector must say.
-/
namespace Verif

/-- The C++ class of a vector of numbers, and ROOT's number for the type of its items. -/
def vectorOf : Ty → Option (Str × Int)
  | .i8 => some (b! "vector<int8_t>", 1)
  | .i16 => some (b! "vector<int16_t>", 2)
  | .i32 => some (b! "vector<int32_t>", 3)
  | .f32 => some (b! "vector<float>", 5)
  | .f64 => some (b! "vector<double>", 8)
  | .u8 => some (b! "vector<uint8_t>", 11)
  | .u16 => some (b! "vector<uint16_t>", 12)
  | .u32 => some (b! "vector<uint32_t>", 13)
  | .i64 => some (b! "vector<int64_t>", 16)
  | .u64 => some (b! "vector<uint64_t>", 17)
  | _ => none

/-- The record has one member, a vector of the given class whose items have the given type. -/
def StreamerInfo.IsVector (s : StreamerInfo) (name : Str) (content : Int) : Prop :=
  s.name = name ∧ ∃ el ct, s.elems = [.stl el .vector ct] ∧ el.ename = name ∧ el.esize = 24 ∧ ct.toI32 = content

end Verif
