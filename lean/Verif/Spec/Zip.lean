import Verif.Model.BranchRead
/-
What iterating a branch with sub-branches must give: one row per entry, made of one cell of every
sub-branch.
-/
namespace Verif

/-- The cells of a chunk: as many as it announces, of the size it announces, one after the other. -/
def Chunk.cells : Chunk → List (List Byte)
  | .regular n size buf => (List.range n.toNat).map fun i => (buf.drop (i * size.toNat)).take size.toNat
  | .irregular .. => []

/-- A chunk of fixed-size cells that is not empty and holds the bytes it announces. -/
def Chunk.Fixed : Chunk → Prop
  | .regular n size buf => 0 < n ∧ 0 ≤ size ∧ n * size ≤ buf.length
  | .irregular .. => False

/-- The `i`-th row. -/
def rowOf (subs : List (List Chunk)) (i : Nat) : List Byte :=
  subs.flatMap fun cs => ((cs.flatMap Chunk.cells)[i]?).getD []

end Verif
