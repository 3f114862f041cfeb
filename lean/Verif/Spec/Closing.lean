import Verif.Spec.Layout
import Verif.Model.Disk
/-
The writes of `close` after which another list of objects counts.
-/
namespace Verif

/-- The `n`-th write (from zero) of the closed file `f'` is the one that puts the record of the directory
again, or the last one, the header.  The first four writes are those of `create`. -/
def Redirects (f f' : FileW) (n : Nat) : Prop :=
  n + 1 = f'.trace.length ∨ 4 ≤ n ∧ ∃ w, f'.trace[n]? = some w ∧ (w.pos : Int) = f.recordPos

/-- The record of the directory was put again by one of the first `n` writes. -/
def KeysListed (f f' : FileW) (n : Nat) : Prop :=
  ∃ m w, 4 ≤ m ∧ m < n ∧ f'.trace[m]? = some w ∧ (w.pos : Int) = f.recordPos

end Verif
