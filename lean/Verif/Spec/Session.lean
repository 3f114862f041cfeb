import Verif.Model.Session
/-
Sessions: a file is created, then used by any sequence of calls, each of which may be refused, and
possibly closed.
-/
namespace Verif

/-- What a program can do with a file between creating and closing it: store an object, store the
basket of a tree being written, announce the description of a class. -/
inductive Op
  | put (name : Str) (obj : PutObj)
  | basket (b : WBasket)
  | register (si : StreamerInfo)

/-- The call. -/
def Op.run (env : Env) : Op → Fs Unit
  | .put name obj => Verif.put env name obj
  | .basket b => fun f => match b.writeToFile f with
    | (.ok _, f') => (.ok (), f')
    | (.error e, f') => (.error e, f')
  | .register si => registerInfo si

/-- The file is below the 2 GB limit: its declared end and everything written. -/
structure FileW.Below2GB (f : FileW) : Prop where
  end_ : f.header.end_ ≤ 2000000000
  data : ∀ w ∈ f.trace, w.pos + w.data.length ≤ 2000000000

/-- Performing calls one after the other, the file staying below 2 GB.  A call that returns an error
does not end the session, a panic does. -/
inductive Runs (env : Env) : FileW → List Op → FileW → Prop
  | nil {f} : Runs env f [] f
  | snoc {f ops g op r g'} : Runs env f ops g → op.run env g = (r, g') → r ≠ .error .panic →
      g'.Below2GB → Runs env f (ops ++ [op]) g'

/-- The states reached by creating a file at `path` and performing calls. -/
def Session (env : Env) (path : Str) (ops : List Op) (f : FileW) : Prop :=
  ∃ ids f0, createFile (FileW.initial path ids) = (.ok (), f0) ∧ f0.Below2GB ∧ Runs env f0 ops f

/-- Closing the file, which stays below 2 GB. -/
def Closes (env : Env) (f f' : FileW) : Prop :=
  closeFile env f = (.ok (), f') ∧ f'.Below2GB

end Verif
