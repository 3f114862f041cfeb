import Verif.Spec.TreeWrite
/-
Trees whose branches get their values from any iterators: one that has answered `None` may go on later.
-/
namespace Verif

/-- What is given to `new_branch`: the type, the name, and what the iterator will answer. -/
structure Feed where
  ty : Ty
  name : Str
  answers : List (Option ty.Val)

/-- The calls of `new_branch` on a new tree, `callbacks` functions being registered. -/
def buildFeeds (name : Str) (callbacks : Nat) (feeds : List Feed) : Res WTree :=
  feeds.foldlM (fun t a => t.newBranch a.ty a.name a.answers) { WTree.new name with callbacks := callbacks }

/-- How often an iterator answers before it has nothing for the first time. -/
def Feed.steady (a : Feed) : Nat := (a.answers.takeWhile Option.isSome).length

/-- How long it takes until all iterators have once had nothing. -/
def steadiest (feeds : List Feed) : Nat := (feeds.map Feed.steady).foldr max 0

/-- The values that an iterator gives when it is asked `n` times. -/
def Feed.given (n : Nat) (a : Feed) : Column := ⟨a.ty, a.name, (a.answers.take n).filterMap id⟩

/-- The columns that are stored: every iterator is asked until all have once had nothing, and what any of them
gives is stored, also when it has had nothing before. -/
def storedColumns (feeds : List Feed) : List Column := feeds.map (Feed.given (steadiest feeds + 1))

/-- An iterator that gives the values of a column and then nothing. -/
def Column.feed (c : Column) : Feed := ⟨c.ty, c.name, c.vals.map some⟩

/-- An iterator that has nothing has nothing from then on. -/
def Feed.Fused (a : Feed) : Prop :=
  ∀ i j : Nat, i ≤ j → a.answers[i]?.join = none → a.answers[j]?.join = none

/-- The values that an iterator gives before it has nothing for the first time. -/
def Feed.first (a : Feed) : List a.ty.Val := (a.answers.takeWhile Option.isSome).filterMap id

end Verif
