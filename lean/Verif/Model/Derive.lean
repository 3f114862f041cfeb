import Verif.Model.TreeWrite
/-
Deriving `ReadFromTree` and `WriteToTree` for a structure: rtree/tree/branch_name.rs, rtree/tree/traits.rs
and oxyroot_derive/src/lib.rs.  The macros generate code; what is modelled is the code they generate, for
structures with named fields.  `slicable` fields (a feature of the reader only) are in Model/DeriveRead.
-/
namespace Verif

/-! ### branch_name.rs -/

/-- branch_name.rs 1-6 `BranchName`. -/
inductive BranchName where
  | mk (parent : Option BranchName) (name prefixBranch : Option Str)

namespace BranchName

/-- The field `name`. -/
def name : BranchName → Option Str
  | .mk _ n _ => n

/-- branch_name.rs 32-38 `new`. -/
def new : BranchName := .mk none none none

/-- branch_name.rs 15-18 `with_prefix`. -/
def withPrefix (p : Str) : BranchName → BranchName
  | .mk parent n _ => .mk parent n (some p)

/-- branch_name.rs 20-23 `with_name`. -/
def withName (n : Str) : BranchName → BranchName
  | .mk parent _ p => .mk parent (some n) p

/-- branch_name.rs 25-30 `make_absolute`. -/
def makeAbsolute (_ : BranchName) (n : Str) : BranchName := .mk none (some n) none

/-- branch_name.rs 40-49 `make_child`. -/
def makeChild (b : BranchName) (n : Str) : BranchName :=
  match b.name with
  | none => .mk none (some n) none
  | some _ => .mk (some b) (some n) none

/-- branch_name.rs 51-70 `final_name`; `.` is 46. -/
def finalName : BranchName → Str
  | .mk none n p => p.getD [] ++ n.getD []
  | .mk (some q) n p => q.finalName ++ [46] ++ p.getD [] ++ n.getD []

end BranchName

/-! ### Structures -/

/-- A field with its `#[oxyroot(...)]` attributes: oxyroot_derive/src/lib.rs 31-42 `FOpts`. -/
structure FieldOpts where
  name : Str
  rename : Option Str := none
  branchPrefix : Option Str := none
  absolute : Option Str := none

mutual
/-- The type of a field: one that is stored in a branch, or another structure, with its
`branch_prefix` (lib.rs 14-29 `GOpts`). -/
inductive Shape where
  | leaf (t : Ty)
  | struct (branchPrefix : Option Str) (fs : Fields)
/-- The fields of a structure. -/
inductive Fields where
  | nil
  | cons (o : FieldOpts) (s : Shape) (fs : Fields)
end

mutual
/-- The values of the structure. -/
def Shape.Val : Shape → Type
  | .leaf t => t.Val
  | .struct _ fs => fs.Val
def Fields.Val : Fields → Type
  | .nil => Unit
  | .cons _ s fs => s.Val × fs.Val
end

/-! ### The names a derived `ReadFromTree` asks for -/

/-- lib.rs 454-492 (and 545-583): the name of a field given that of the structure. -/
def FieldOpts.branchName (o : FieldOpts) (branchPrefix : Option Str) (parent : BranchName) : BranchName :=
  let b := parent.makeChild (o.rename.getD o.name)
  let b := match branchPrefix with
    | none => b
    | some g => b.withPrefix g
  let b := match o.absolute with
    | none => b
    | some a => b.makeAbsolute a
  match o.branchPrefix with
  | none => b
  | some l => b.withPrefix l

mutual
/-- The names of the branches looked up by `from_branch_tree`: traits.rs 80-94 for a field that is stored
in a branch, lib.rs 494-521 for a structure. -/
def Shape.readNames : Shape → BranchName → List Str
  | .leaf _, b => [b.finalName]
  | .struct g fs, b => fs.readNames g b
def Fields.readNames : Fields → Option Str → BranchName → List Str
  | .nil, _, _ => []
  | .cons o s fs, g, b => s.readNames (o.branchName g b) ++ fs.readNames g b
end

/-- traits.rs 41-54 `from_tree`. -/
def Shape.treeReadNames (s : Shape) : List Str := s.readNames .new

/-! ### The branches a derived `WriteToTree` makes -/

mutual
/-- The calls of `new_branch` made by `to_branch_tree`: traits.rs 135-146 for what is stored in a branch
(`branch_name.unwrap()`), lib.rs 947-974 for a structure, which does not use the name it is given nor
the attributes. -/
def Shape.writeBranches : Shape → Option Str → Res (List (Str × Ty))
  | .leaf t, some n => .ok [(n, t)]
  | .leaf _, none => .error .panic
  | .struct _ fs, _ => fs.writeBranches
def Fields.writeBranches : Fields → Res (List (Str × Ty))
  | .nil => .ok []
  | .cons o s fs => do
    let l ← s.writeBranches (some o.name)
    let r ← fs.writeBranches
    pure (l ++ r)
end

mutual
/-- lib.rs 722-770: the channels.  A field that is stored in a branch has one; a structure has the one
its own function takes from, and those of its fields. -/
def Shape.Cell : Shape → Type
  | .leaf t => Option t.Val
  | .struct _ fs => Option fs.Val × fs.Cells
def Fields.Cells : Fields → Type
  | .nil => Unit
  | .cons _ s fs => s.Cell × fs.Cells
end

mutual
/-- The new channels hold nothing (lib.rs 744). -/
def Shape.empty : (s : Shape) → s.Cell
  | .leaf _ => none
  | .struct _ fs => (none, fs.empty)
def Fields.empty : (fs : Fields) → fs.Cells
  | .nil => ()
  | .cons _ s fs => (s.empty, fs.empty)
end

/-- lib.rs 732-737 `send` on the channel of a field. -/
def Shape.send : (s : Shape) → Option s.Val → s.Cell → s.Cell
  | .leaf _, v, _ => v
  | .struct _ _, v, c => (v, c.2)

/-- lib.rs 838-900: the fields of what the function has got are sent, or `None` to all. -/
def Fields.send : (fs : Fields) → Option fs.Val → fs.Cells → fs.Cells
  | .nil, _, c => c
  | .cons _ s fs, v, c => (s.send (v.map Prod.fst) c.1, fs.send (v.map Prod.snd) c.2)

mutual
/-- lib.rs 774-793 with writer.rs 125-127: the functions called with `Before`.  Those of the fields are
registered first, in order (lib.rs 795-796); that of the structure takes what is in its channel
(761-766). -/
def Shape.before : (s : Shape) → s.Cell → s.Cell
  | .leaf _, c => c
  | .struct _ fs, c => (none, fs.send c.1 (fs.before c.2))
def Fields.before : (fs : Fields) → fs.Cells → fs.Cells
  | .nil, c => c
  | .cons _ s fs, c => (s.before c.1, fs.before c.2)
end

mutual
/-- lib.rs 761-766 `next` on the channels of the branches, in the order of the branches: what they
answer. -/
def Shape.answers : (s : Shape) → s.Cell → List (Option (Wr Nat))
  | .leaf t, c => [Option.map t.marshal c]
  | .struct _ fs, c => fs.answers c.2
def Fields.answers : (fs : Fields) → fs.Cells → List (Option (Wr Nat))
  | .nil, _ => []
  | .cons _ s fs, c => s.answers c.1 ++ fs.answers c.2
end

mutual
/-- The channels of the branches afterwards (`take`). -/
def Shape.taken : (s : Shape) → s.Cell → s.Cell
  | .leaf _, _ => none
  | .struct _ fs, c => (c.1, fs.taken c.2)
def Fields.taken : (fs : Fields) → fs.Cells → fs.Cells
  | .nil, c => c
  | .cons _ s fs, c => (s.taken c.1, fs.taken c.2)
end

/-- The answers of all branches in successive rounds; the outermost function asks the iterator for the
next structure.  It is asked after the functions of the fields have been called, which do not look at
it. -/
def Shape.rounds (s : Shape) : List (Option s.Val) → s.Cell → List (List (Option (Wr Nat)))
  | [], _ => []
  | v :: vs, c =>
    let c := s.before (s.send v c)
    s.answers c :: s.rounds vs (s.taken c)

mutual
/-- How deep structures are nested. -/
def Shape.depth : Shape → Nat
  | .leaf _ => 0
  | .struct _ fs => fs.depth + 1
def Fields.depth : Fields → Nat
  | .nil => 0
  | .cons _ s fs => max s.depth fs.depth
end

/-- The answers of the `j`-th branch.  After `rows.length + depth - 1` rounds nothing is left in the
channels. -/
def Shape.stream (s : Shape) (rows : List s.Val) (j : Nat) : List (Option (Wr Nat)) :=
  (s.rounds (rows.map some ++ List.replicate (s.depth - 1) none) s.empty).map fun r => r.getD j none

mutual
/-- One function per structure. -/
def Shape.callbacks : Shape → Nat
  | .leaf _ => 0
  | .struct _ fs => fs.callbacks + 1
def Fields.callbacks : Fields → Nat
  | .nil => 0
  | .cons _ s fs => s.callbacks + fs.callbacks
end

/-- The branches, from the `j`-th on. -/
def Shape.pushBranches (s : Shape) (rows : List s.Val) : Nat → List (Str × Ty) → WTree → Res WTree
  | _, [], t => .ok t
  | j, (n, ty) :: bs, t => do
    let t ← t.pushBranch ty n (s.stream rows j)
    s.pushBranches rows (j + 1) bs t

/-- traits.rs 57-67 `to_tree`: the tree with the branches of the structure and its functions; each branch
will answer as the channels do when the tree is written. -/
def Shape.toTree (s : Shape) (rows : List s.Val) (t : WTree) : Res WTree := do
  let bs ← s.writeBranches none
  let t ← s.pushBranches rows 0 bs t
  pure { t with callbacks := t.callbacks + s.callbacks }

end Verif
