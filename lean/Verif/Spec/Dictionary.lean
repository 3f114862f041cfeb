import Verif.Spec.Reopen
import Verif.Model.Dictionary
/-
The classes a class record refers to, and the calls made by writing trees.
-/
namespace Verif

/-- An element of a class record refers to a class: its base class, the class of a member object, of
the object a member points to, of the items of a vector. -/
inductive RefersTo : Streamer → Str → Prop
  | base (e : StreamerElement) (v : Int) : RefersTo (.base e v) e.named.name
  | object (e : StreamerElement) : RefersTo (.object e) e.ename
  | objectAny (e : StreamerElement) : RefersTo (.objectAny e) e.ename
  | pointer (e : StreamerElement) (n : Str) : e.ename = n ++ b! "*" → (42 : Byte) ∉ n → RefersTo (.objectPointer e) n
  | vector (e : StreamerElement) (c : EnumT) (w : Str) : e.ename = b! "vector<" ++ w ++ b! ">" →
      w ≠ [] → (∀ x ∈ w, isWordByte x = true) → RefersTo (.stl e .vector c) w

/-- The classes and types every reader knows without a record: file.rs 304-312 and utils.rs 16-73. -/
def BuiltIn (n : Str) : Prop := n ∈ coreTypes ∨ n ∈ cxxBuiltins

/-- The records contain one for every class they refer to. -/
def Closed (sis : List StreamerInfo) : Prop :=
  ∀ s ∈ sis, ∀ e ∈ s.elems, ∀ n, RefersTo e n → BuiltIn n ∨ ∃ s' ∈ sis, s'.name = n

/-- The only records announced are those of vectors (nothing else in the library announces any). -/
def OnlyVectors (ops : List Op) : Prop := ∀ si, Op.register si ∈ ops → ∃ t, makeVectorStreamer t = .ok si

end Verif
