import Verif.Spec.Total
/-
How many numbers a column can have.
-/
namespace Verif

/-- The bytes of a number. -/
def Ty.numberBytes : Ty → Nat
  | .i8 | .u8 => 1
  | .i16 | .u16 => 2
  | .i32 | .u32 | .f32 => 4
  | _ => 8

/-- The most numbers a column can have: one less than fill 32767 baskets of at most 32767 bytes. -/
def Ty.most (t : Ty) : Nat := 32767 * (32767 / t.numberBytes) - 1

/-- A tree of one column of numbers, with usual names; in memory, the branch and its leaf are different objects. -/
structure TreeIn.OneColumn (t : TreeIn) (c : Column) : Prop where
  cols : t.cols = [c]
  text : utf8 t.name = true
  short : t.name.length ≤ 1000
  noSlash : (47 : Byte) ∉ t.name
  noSemicolon : (59 : Byte) ∉ t.name
  memory : ∀ i, (t.places i).2.length = 1
  distinct : ((t.places 0).1 :: (t.places 0).2).Nodup
  numbers : c.ty.isNumber = true
  colText : utf8 c.name = true
  colShort : c.name.length ≤ 1000
  /-- no `[`, no `]` -/
  noBrackets : (91 : Byte) ∉ c.name ∧ (93 : Byte) ∉ c.name
  /-- the numbers are in the range of their type, as they are in Rust -/
  values : ∀ v ∈ c.vals, c.ty.Ok v

end Verif
