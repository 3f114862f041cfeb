import Verif.Model.Derive
import Verif.Model.BranchLookup
import Verif.Model.Containers
/-
Reading with a derived `ReadFromTree`: rtree/tree/traits.rs 41-94 and oxyroot_derive/src/lib.rs 254-380,
454-583, 585-710.  What is modelled is the code that the macro generates.

An iterator is the function that gives what the calls of `next` answer: the first, the second, and so
on.  Only the calls up to the first `None` are meant; afterwards the columns of a structure are not
at the same entry any more.  The iterator of a column is run to its end when it is made (as
`Branch.asIter` does), so that a column that cannot be read makes the call fail here that would abort
later in the code.
-/
namespace Verif

/-- reader.rs 38-49 `ReaderTree::branch`, with what `is_top_level()` answers: reader.rs 241 sets it for
the branches of the tree itself. -/
def lookupTop : List Branch → Str → Option (Branch × Bool)
  | [], _ => none
  | b :: bs, name =>
    if b.name = name then some (b, true)
    else
      match b.lookup name with
      | some bb => some (bb, false)
      | none => lookupTop bs name

/-- traits.rs 80-94: the branch of the name (`BranchNotFound` otherwise) and its values, of a type that is
read by `func` and has the names `names`. -/
def readColumn {α} (r : Reader) (bs : List Branch) (names : List Str) (func : Rd α) (n : Str) :
    Res (Nat → Option α) :=
  match lookupTop bs n with
  | none => .error (.err .branchNotFound)
  | some (b, top) => do
    let vs ← b.asIter r top (some names) func
    pure fun i => vs[i]?

mutual
/-- `from_branch_tree`: traits.rs 80-94 for what is stored in a branch, lib.rs 303-336 for a structure. -/
def Shape.read (r : Reader) (bs : List Branch) : (s : Shape) → BranchName → Res (Nat → Option s.Val)
  | .leaf t, b => readColumn r bs t.rdClassNames t.unmarshal b.finalName
  | .struct g fs, b => fs.read r bs g b
/-- lib.rs 454-521: the iterators of all fields are made, in order, the first failure being the result;
lib.rs 599-623: `next` asks the fields in order and answers `None` as soon as one of them does. -/
def Fields.read (r : Reader) (bs : List Branch) : (fs : Fields) → Option Str → BranchName →
    Res (Nat → Option fs.Val)
  | .nil, _, _ => .ok fun _ => some ()
  | .cons o s fs, g, b => do
    let x ← s.read r bs (o.branchName g b)
    let xs ← fs.read r bs g b
    pure fun i => do
      let v ← x i
      let vs ← xs i
      some (v, vs)
end

/-- traits.rs 42-54 `from_tree` of a structure. -/
def Shape.fromTree (r : Reader) (bs : List Branch) (s : Shape) : Res (Nat → Option s.Val) := s.read r bs .new

/-! ### Slicable structures -/

/-- lib.rs 386-428: one slice per field.  The fields of a slicable structure are stored in branches (others
do not compile). -/
def Fields.Slices : Fields → Type
  | .nil => Unit
  | .cons _ (.leaf t) fs => List t.Val × fs.Slices
  | .cons _ (.struct ..) fs => fs.Slices

/-- lib.rs 545-583 and 585-597: `Slice<T>` is read for a field of type `T`. -/
def Fields.readSlices (r : Reader) (bs : List Branch) : (fs : Fields) → Option Str → BranchName →
    Res (Nat → Option fs.Slices)
  | .nil, _, _ => .ok fun _ => some ()
  | .cons o (.leaf t) fs, g, b => do
    let x ← readColumn r bs (sliceClassNames t) (Rd.slice t.unmarshal) (o.branchName g b).finalName
    let xs ← fs.readSlices r bs g b
    pure fun i => do
      let v ← x i
      let vs ← xs i
      some (v, vs)
  | .cons _ (.struct ..) fs, g, b => fs.readSlices r bs g b

/-- lib.rs 652-660: `_size_slice` is set again for each field. -/
def Fields.sizeSlice : (fs : Fields) → fs.Slices → Nat → Nat
  | .nil, _, n => n
  | .cons _ (.leaf _) fs, c, _ => fs.sizeSlice c.2 c.1.length
  | .cons _ (.struct ..) fs, c, n => fs.sizeSlice c n

/-- lib.rs 662-670: the `i`-th item of every field; one that is not there aborts. -/
def Fields.pick : (fs : Fields) → fs.Slices → Nat → Res fs.Val
  | .nil, _, _ => .ok ()
  | .cons _ (.leaf _) fs, c, i =>
    match c.1[i]? with
    | none => .error .panic
    | some v => do
      let vs ← fs.pick c.2 i
      pure (v, vs)
  | .cons _ (.struct ..) _, _, _ => .error .panic

/-- lib.rs 692-703: the structures of one entry. -/
def Fields.transpose (fs : Fields) (c : fs.Slices) : Res (List fs.Val) :=
  collect ((List.range (fs.sizeSlice c 0)).map (fs.pick c))

/-- lib.rs 345-376 `from_branch_tree_sliced` of a slicable structure, and the conversion to a vector of
lib.rs 612-616. -/
def Fields.readSliced (r : Reader) (bs : List Branch) (fs : Fields) (g : Option Str) (b : BranchName) :
    Res (Nat → Option (Res (List fs.Val))) := do
  let xs ← fs.readSlices r bs g b
  pure fun i => (xs i).map fs.transpose

end Verif
