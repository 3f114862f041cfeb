import Verif.Spec.RootBaskets
import Verif.Spec.Baskets
/-
What ROOT demands of the baskets of a column.
-/
namespace Verif

/-- Entries of this type do not all have the same length: texts and vectors. -/
def Ty.uneven : Ty → Bool
  | .string => true
  | .vec _ => true
  | _ => false

/-- The basket is the `j`-th one, from 0, of the branch called `name` of the tree called `tn`: it is labelled
so, is not compressed, and has a table of the positions of its entries if their lengths differ; if it has none,
every entry has the length the basket announces. -/
structure RootBasket.Of (x : RootBasket) (tn name : Str) (j : Nat) (uneven : Bool) : Prop where
  cls : x.key.cls = b! "TBasket"
  name : x.key.name = name
  title : x.key.title = tn
  cycle : x.key.cycle = j + 1
  dir : x.key.seekPdir = 100
  plain : x.block = none
  table : x.table = uneven
  even : x.table = false → ∀ e ∈ x.entries, (e.length : Int) = x.nevSize

/-- These are the baskets of the column: the branch lists them, they are in the file, together they hold the
entries of the column in order, and the branch knows which entry is the first of each. -/
structure ColumnBaskets (r : Reader) (tn : Str) (c : Column) (d : BranchData) (xs : List RootBasket) : Prop where
  listed : ∃ l, Lists r d l xs
  entries : xs.flatMap RootBasket.entries = c.vals.map (entryBytes c.ty)
  count : d.writeBasket = xs.length
  first : d.basketEntry = (List.range (xs.length + 1)).map fun j =>
    ((((xs.take j).map fun x => x.entries.length).sum : Nat) : Int)
  each : ∀ (j : Nat) x, xs[j]? = some x → x.Of tn c.name j c.ty.uneven
  total : d.totBytes = (xs.map fun x => x.key.nBytes).sum ∧ d.zipBytes = d.totBytes

end Verif
