import Verif.Spec.TreeSession
/-
How ROOT describes columns in a file.
-/
namespace Verif

/-- For numbers and booleans: the letter of the class of the leaf (`TLeafB`, ...), whether it is unsigned, and
the number of bytes. -/
def Ty.leafOf : Ty → Option (LeafKind × Bool × Int)
  | .bool => some (.O, false, 1)
  | .i8 => some (.B, false, 1)
  | .u8 => some (.B, true, 1)
  | .i16 => some (.S, false, 2)
  | .u16 => some (.S, true, 2)
  | .i32 => some (.I, false, 4)
  | .u32 => some (.I, true, 4)
  | .i64 => some (.L, false, 8)
  | .u64 => some (.L, true, 8)
  | .f32 => some (.F, false, 4)
  | .f64 => some (.D, false, 8)
  | .string | .vec _ | .arr .. => none

/-- For numbers: the letter of the title of the column. -/
def Ty.titleLetter : Ty → Option Str
  | .i8 => some (b! "B")
  | .u8 => some (b! "b")
  | .i16 => some (b! "S")
  | .u16 => some (b! "s")
  | .i32 => some (b! "I")
  | .u32 => some (b! "i")
  | .i64 => some (b! "L")
  | .u64 => some (b! "l")
  | .f32 => some (b! "F")
  | .f64 => some (b! "D")
  | _ => none

/-- The name of a number in the name of a class. -/
def Ty.cppName : Ty → Option Str
  | .i8 => some (b! "int8_t")
  | .u8 => some (b! "uint8_t")
  | .i16 => some (b! "int16_t")
  | .u16 => some (b! "uint16_t")
  | .i32 => some (b! "int32_t")
  | .u32 => some (b! "uint32_t")
  | .i64 => some (b! "int64_t")
  | .u64 => some (b! "uint64_t")
  | .f32 => some (b! "float")
  | .f64 => some (b! "double")
  | _ => none

/-- The branch has one leaf, of the given kind, of the name of the column, with the given title, number of items and
bytes for an item. -/
def Branch.HasLeaf (b : Branch) (kind : LeafKind) (unsigned : Bool) (size : Int) (len : Int) (name title : Str) : Prop :=
  ∃ v tl min max, b.data.leaves = [.var kind v tl min max] ∧ tl.unsigned = unsigned ∧ tl.etype = size ∧ tl.len = len ∧
    tl.named.name = name ∧ tl.named.title = title

end Verif
