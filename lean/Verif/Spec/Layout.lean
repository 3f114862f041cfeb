import Verif.Spec.Session
import Verif.Model.Disk
/-
Where things are in the file.
-/
namespace Verif

/-- The bytes of the write lie in `[lo, hi)`. -/
def DiskWrite.Within (w : DiskWrite) (lo hi : Int) : Prop :=
  lo ≤ w.pos ∧ (w.pos : Int) + w.data.length ≤ hi

/-- The two writes have no byte in common. -/
def DiskWrite.Disjoint (a b : DiskWrite) : Prop :=
  ∀ p, ¬ (a.pos ≤ p ∧ p < a.pos + a.data.length ∧ b.pos ≤ p ∧ p < b.pos + b.data.length)

/-- The fixed area of the file header. -/
abbrev DiskWrite.InHeader (w : DiskWrite) : Prop := w.Within 0 100

/-- `g` comes later than `f` in the life of the file: further calls, then possibly `close`. -/
inductive Later (env : Env) (f : FileW) : FileW → Prop
  | runs {ops g} : Runs env f ops g → Later env f g
  | close {ops g g'} : Runs env f ops g → Closes env g g' → Later env f g'

/-- The position of the record of the directory, fixed when the file is created. -/
def FileW.recordPos (f : FileW) : Int := f.header.begin_ + f.header.nBytesName

/-- First byte behind the directory record, whose length is fixed when the file is created. -/
def FileW.bodyStart (f : FileW) : Int := f.header.begin_ + f.header.nBytesName + 60

end Verif
