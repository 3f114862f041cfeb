import Verif.Model.TreeWrite
/-
A tree as the user describes it: named columns of values, and a number of callbacks.
-/
namespace Verif

/-- A branch as given to `new_branch`: its type, its name and what the iterator will give. -/
structure Column where
  ty : Ty
  name : Str
  vals : List ty.Val

/-- The calls of `new_branch` on a new tree, `callbacks` functions being registered. -/
def buildTree (name : Str) (callbacks : Nat) (cols : List Column) : Res WTree :=
  cols.foldlM (fun t c => t.newBranch c.ty c.name (c.vals.map some))
    { WTree.new name with callbacks := callbacks }

/-- The length of the longest column. -/
def longest (cols : List Column) : Nat := (cols.map fun c => c.vals.length).foldr max 0

/-- What one function hears in a round: `Before`, then the name of each branch. -/
def roundEvents (cols : List Column) : List Event :=
  .before :: cols.map fun c => .branch c.name

end Verif
