import Verif.Spec.Demo
import Verif.Spec.TreeWrite
/-
A small tree used to show that the hypotheses of the theorems can be met: three columns of different
types and lengths.
-/
namespace Verif

/-- The description of class `TTree`, without members. -/
def demoTreeInfo : StreamerInfo where
  named := { name := b! "TTree" }
  clsver := 20

/-- A dictionary that knows trees. -/
def demoTreeEnv : Env where
  db name _ := if name = b! "TTree" then some demoTreeInfo else none
  addr n := 2 * n + 1000

/-- Where the branches and their leaves are. -/
def demoPlaces : Places := fun i => (10000 + 64 * i, [10032 + 64 * i])

/-- Three columns: four numbers, two strings, one vector. -/
def demoCols : List Column :=
  [⟨.i32, b! "x", [1, -2, 3, 4]⟩, ⟨.string, b! "s", [b! "ab", b! ""]⟩, ⟨.vec .f64, b! "v", [[1, 2]]⟩]

/-- The tree, two functions being registered. -/
def demoTree : WTree := match buildTree (b! "t") 2 demoCols with
  | .ok t => t
  | .error _ => WTree.new []

/-- A new file. -/
def demoFile : FileW := (createFile (FileW.initial (b! "d.root") 10)).2

/-- The result of writing the tree. -/
def demoTreeRun : Res WTree × FileW := demoTree.write demoTreeEnv demoPlaces demoFile

theorem ok_built {name : Str} {cb : Nat} {cols : List Column}
    (h : isOk (buildTree name cb cols) = true) :
    buildTree name cb cols = .ok (match buildTree name cb cols with
      | .ok t => t
      | .error _ => WTree.new []) := by
  generalize buildTree name cb cols = x at h
  cases x with
  | ok => rfl
  | error => cases h

theorem ok_result {α} {x : Res α × FileW} (h : isOk x.1 = true) : ∃ a, x = (.ok a, x.2) := by
  obtain ⟨(e | a), f⟩ := x
  · cases h
  · exact ⟨a, rfl⟩

theorem demo_built : buildTree (b! "t") 2 demoCols = .ok demoTree := ok_built (by decide +kernel)

theorem demo_tree_written : ∃ t, demoTree.write demoTreeEnv demoPlaces demoFile = (.ok t, demoTreeRun.2) :=
  ok_result (by decide +kernel)

end Verif
