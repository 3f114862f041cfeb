import Verif.Spec.Session
import Verif.Spec.Reopen
import Verif.Model.BranchRead
/-
What a reader gets from a file, and that it gets the same from another one.
-/
namespace Verif

/-- Every piece of the sub-branches of the branch can be read (nothing is asked of a branch without
sub-branches). -/
def Branch.Whole (r : Reader) (b : Branch) : Prop :=
  ∀ sub ∈ b.branches, ∀ cs, sub.data.chunks r = .ok cs → ∀ c ∈ cs, ∃ x, c = .ok x

/-- A reader that could open `img` can open `img'`, finds the same names and the same class records
there, and what it could read from `img` it reads from `img'`: each object, each tree, and the values
of each column whatever the type they are asked in. -/
def StillReads (dec : Decoders) (img img' : List Byte) : Prop :=
  ∀ fuel r, openFile dec fuel img = .ok r → ∃ r', openFile dec fuel img' = .ok r' ∧
    r'.keysName = r.keysName ∧ r'.sinfos = r.sinfos ∧
    (∀ name o, r.getObject dec fuel name = .ok o → r'.getObject dec fuel name = .ok o) ∧
    (∀ name t, r.getTree dec fuel name = .ok t → r'.getTree dec fuel name = .ok t) ∧
    (∀ (b : Branch) top names {α} (func : Rd α) vals, b.Whole (r.reader dec) →
      b.asIter (r.reader dec) top names func = .ok vals →
      b.asIter (r'.reader dec) top names func = .ok vals)

/-- The entry of the directory is the one of the object stored under the name: name, class and title, and
behind it are the bytes the object was written as. -/
def EntryOf (dec : Decoders) (r : FileR) (p : Str × PutObj) (k : Key) : Prop :=
  k.name = p.1 ∧ k.cls = shownClass p.2.cls ∧ k.title = p.2.title ∧
  ∃ n w, p.2.marshal (WBuffer.new k.keyLen.toNat) = .ok (n, w) ∧ k.load dec r.img = .ok w.p

/-- Bytes that are enough for the list of the objects. -/
def listRoom (path : Str) (objs : List (Str × PutObj)) : Nat :=
  path.length + 100 + (objs.map fun p => p.1.length + p.2.title.length + p.2.cls.length + 60).sum

end Verif
