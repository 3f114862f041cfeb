import Verif.Spec.Total
import Verif.Spec.Interpret
import Verif.Model.Dump
/-
What the programs `oxyroot-ls` and `oxyroot-dump` should print for trees that were written.
-/
namespace Verif

/-- The type of a column as it is shown: as ROOT names it. -/
def Ty.shownType : Ty → Str
  | .bool => b! "bool"
  | .i8 => b! "int8_t"
  | .u8 => b! "uint8_t"
  | .i16 => b! "int16_t"
  | .u16 => b! "uint16_t"
  | .i32 => b! "int32_t"
  | .u32 => b! "uint32_t"
  | .i64 => b! "int64_t"
  | .u64 => b! "uint64_t"
  | .f32 => b! "float"
  | .f64 => b! "double"
  | .string => b! "char*"
  | .vec t => b! "vector<" ++ t.shownType ++ b! ">"
  | .arr n t => t.shownType ++ b! "[" ++ decimal n ++ b! "]"

/-- One line for a column: its name, its type, its Rust type. -/
def Column.listed (c : Column) : ShowLine := ⟨c.name, c.ty.shownType, c.ty.rustName⟩

/-- One line for every column, in their order. -/
def TreeIn.listing (t : TreeIn) : List ShowLine := t.cols.map Column.listed

/-- The types of columns that the program can print: all but vectors of integers of 64 bits. -/
def Ty.isDumped : Ty → Bool
  | .vec .i64 | .vec .u64 => false
  | _ => true

/-- A value of a column as it is printed. -/
def Ty.shown : (t : Ty) → t.Val → Cell
  | .arr n t, v => ⟨.sized n t, v⟩
  | t, v => ⟨.of t, v⟩

/-- For every entry of the tree, the value of every given column, or that it has none. -/
def dumpOf (entries : Nat) (cols : List Column) : List DumpLine :=
  (List.range entries).flatMap fun i => cols.map fun c => ⟨i, c.name, c.vals[i]?.map c.ty.shown⟩

/-- What is printed for a tree: the columns of all types but those that the program leaves out. -/
def TreeIn.dump (t : TreeIn) : List DumpLine := dumpOf (longest t.cols) (t.cols.filter fun c => c.ty.isDumped)

/-- No `[` and no `]` in the names of the columns, see C38. -/
def TreeIn.NoBrackets (t : TreeIn) : Prop := ∀ c ∈ t.cols, (91 : Byte) ∉ c.name ∧ (93 : Byte) ∉ c.name

end Verif
