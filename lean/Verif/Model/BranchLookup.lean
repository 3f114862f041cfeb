import Verif.Model.TreeRecords
/-
Listing the branches of a tree and looking one up: rtree/tree/reader.rs 38-73,
rtree/branch/mod.rs 107-134, rtree/branch/tbranch.rs 101-119.
-/
namespace Verif

mutual
/-- branch/mod.rs 129-134 and tbranch.rs 107-119 `branch`, on a `TBranch` or the `TBranch` part of a
`TBranchElement`. -/
def Branch.lookup : Branch → Str → Option Branch
  | .mk _ _ bs, name => lookupBranch bs name
/-- The loop of tbranch.rs 107-119; the same loop is reader.rs 38-49 `ReaderTree::branch` over the
branches of the tree. -/
def lookupBranch : List Branch → Str → Option Branch
  | [], _ => none
  | b :: bs, name =>
    if b.name = name then some b
    else
      match b.lookup name with
      | some bb => some bb
      | none => lookupBranch bs name
end

mutual
/-- branch/mod.rs 115-126 `branches_r`. -/
def Branch.branchesR : Branch → List Branch
  | .mk _ _ bs => branchesR bs
/-- The loop of branch/mod.rs 115-126; the same loop is reader.rs 62-73 `ReaderTree::branches_r`. -/
def branchesR : List Branch → List Branch
  | [] => []
  | b :: bs => (b :: b.branchesR) ++ branchesR bs
end

end Verif
