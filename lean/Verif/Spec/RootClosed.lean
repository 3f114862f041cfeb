import Verif.Spec.RootFiles
import Verif.Spec.Reopen
import Verif.Spec.Walk
/-
A file of ROOT with the objects that were put.
-/
namespace Verif

/-- A key of a file and the record behind it, as it should be for an object that was put: the labels are those of
the object, and the bytes are those it writes of itself behind such a key. -/
def PutRecord (dec : Decoders) (img : List Byte) (p : Str × PutObj) (k : Key × Nat) : Prop :=
  ∃ r : RootRecord, (r.key, r.date) = k ∧ r.In dec img ∧ r.key.name = p.1 ∧ r.key.cls = p.2.cls ∧
    r.key.title = p.2.title ∧ ∃ n w, p.2.marshal (WBuffer.new r.key.keyLen.toNat) = .ok (n, w) ∧ w.p = r.payload

end Verif
