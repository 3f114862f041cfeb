import Verif.Spec.Session
/-
Sessions without a limit on the size of the file.
-/
namespace Verif

/-- Performing calls one after the other, however large the file gets.  A call that returns an error
does not end the session, a panic does. -/
inductive Calls (env : Env) : FileW → List Op → FileW → Prop
  | nil {f} : Calls env f [] f
  | snoc {f ops g op r g'} : Calls env f ops g → op.run env g = (r, g') → r ≠ .error .panic →
      Calls env f (ops ++ [op]) g'

/-- The states reached by creating a file at `path` and performing calls, with no limit on what is
stored after the file has been created. -/
def AnySession (env : Env) (path : Str) (ops : List Op) (f : FileW) : Prop :=
  ∃ ids f0, createFile (FileW.initial path ids) = (.ok (), f0) ∧ f0.Below2GB ∧ Calls env f0 ops f

end Verif
