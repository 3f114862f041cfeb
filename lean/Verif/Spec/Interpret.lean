import Verif.Spec.CppNames
import Verif.Model.Interpret
/-
How Rust writes the types of columns.
-/
namespace Verif

/-- The type as it is written in Rust, without spaces. -/
def Ty.rustName : Ty → Str
  | .bool => b! "bool"
  | .i8 => b! "i8"
  | .u8 => b! "u8"
  | .i16 => b! "i16"
  | .u16 => b! "u16"
  | .i32 => b! "i32"
  | .u32 => b! "u32"
  | .i64 => b! "i64"
  | .u64 => b! "u64"
  | .f32 => b! "f32"
  | .f64 => b! "f64"
  | .string => b! "String"
  | .vec t => b! "Vec<" ++ t.rustName ++ b! ">"
  | .arr n t => b! "[" ++ t.rustName ++ b! ";" ++ decimal n ++ b! "]"

/-- Numbers, booleans and strings. -/
def Ty.isAtom : Ty → Bool
  | .vec _ | .arr .. => false
  | _ => true

/-- Numbers, booleans, strings, arrays of numbers or booleans, and vectors of ... of these. -/
def Ty.Plain : Ty → Prop
  | .vec t => t.Plain
  | .arr _ t => t.isAtom = true ∧ t ≠ .string
  | _ => True

end Verif
