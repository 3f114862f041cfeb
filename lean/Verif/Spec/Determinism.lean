import Verif.Spec.Total
/-
The same program in another process.
-/
namespace Verif

/-- What the user gives for a tree; where its branches are in memory is not part of it. -/
def TreeIn.content (t : TreeIn) : Str × Nat × List Column := (t.name, t.callbacks, t.cols)

/-- The branches of a tree and their leaves are different objects, so they have different addresses. -/
structure TreeIn.Placed (t : TreeIn) : Prop where
  one : ∀ i, (t.places i).2.length = 1
  distinct : ((List.range t.cols.length).flatMap fun i => (t.places i).1 :: (t.places i).2).Nodup

/-- In a process, different class records have different addresses, and no number that the process has
given so far is the address of one. -/
structure Env.Apart (env : Env) (ids : Nat) : Prop where
  different : ∀ i j, env.addr i = env.addr j → i = j
  apart : ∀ j, ids ≤ env.addr j

end Verif
