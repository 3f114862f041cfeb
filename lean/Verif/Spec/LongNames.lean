import Verif.Spec.TreeSession
/-
Objects with names of any length.
-/
namespace Verif

/-- An object whose name, title and class are texts, of any length. -/
structure Textual (p : Str × PutObj) : Prop where
  name : utf8 p.1 = true
  title : utf8 p.2.title = true
  cls : utf8 p.2.cls = true

/-- Everything that was stored is within what the format can hold, except for the lengths of the names of the
objects. -/
structure HoldsAny (env : Env) (path : Str) (ops : List Op) (f0 f' : FileW) : Prop where
  process : env.Sound
  text : utf8 path = true
  short : path.length ≤ 478
  objects : ∀ p ∈ acceptedPuts env f0 ops, Textual p
  records : ∀ op ∈ ops, op.Describable
  listBytes : f'.header.nBytesInfo < 2 ^ 30
  listLength : f'.sinfos.length < 2 ^ 31
  apart : ∀ j, f'.ids ≤ env.addr j

/-- The bytes of a text: the length takes one byte, or five. -/
def textRoom (s : Str) : Nat := s.length + if s.length < 255 then 1 else 5

/-- The bytes in front of an object: 26, its class, its name and its title. -/
def headRoom (p : Str × PutObj) : Nat := 26 + textRoom p.2.cls + textRoom p.1 + textRoom p.2.title

/-- Everything that was stored is within what the format can hold, except for the length of the name of the
tree (and of the names of the other objects). -/
structure TreeHoldsAny (env : Env) (path : Str) (before after : List Op) (tn : Str) (cols : List Column)
    (f0 f2 f' : FileW) : Prop where
  process : env.Sound
  text : utf8 path = true
  short : path.length ≤ 478
  objects : ∀ p ∈ acceptedPuts env f0 before ++ acceptedPuts env f2 after, Textual p
  records : ∀ op ∈ before ++ after, op.Describable
  listBytes : f'.header.nBytesInfo < 2 ^ 30
  listLength : f'.sinfos.length < 2 ^ 31
  apart : ∀ j, f'.ids ≤ env.addr j
  fewPuts : ∀ n, (treeNames env tn before after f0 f2).count n ≤ 32767
  treeText : utf8 tn = true
  /-- no `;` in the name of the tree (see C45) -/
  plain : (59 : Byte) ∉ tn
  /-- nothing is stored later under the name of the tree -/
  last : ∀ p ∈ acceptedPuts env f2 after, p.1 ≠ tn
  values : ∀ c ∈ cols, ∀ v ∈ c.vals, c.ty.Ok v

end Verif
