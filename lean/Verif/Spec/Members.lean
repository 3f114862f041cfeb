import Verif.Spec.CppNames
/-
Members of classes: what the record of a class in a file says of them, and how their branches are called.
-/
namespace Verif

/-- Among these class records there is one of class `cls`, and in it one member of the name of `m`, which is `m`.
What other classes and members there are does not matter. -/
def ClassMember (sis : List StreamerInfo) (cls : Str) (m : Streamer) : Prop :=
  ∃ si ∈ sis, si.named.name = cls ∧ (∀ x ∈ sis, x.named.name = cls → x = si) ∧
    m ∈ si.elems ∧ ∀ x ∈ si.elems, x.element.named.name = m.element.named.name → x = m

/-- `n` names a branch of the member `member`: `member`, `ev.track.member`, `ev.member[3][4]`; a dot is 46, brackets
are 91 and 93. -/
structure MemberName (n member : Str) : Prop where
  line : (10 : Byte) ∉ n
  plain : ∀ c ∈ member, c ≠ 46 ∧ c ≠ 91 ∧ c ≠ 93
  parts : ∃ outer dims, n = outer ++ member ++ dims ∧ (outer = [] ∨ outer.getLast? = some 46) ∧
    (dims = [] ∨ dims.head? = some 91) ∧ (46 : Byte) ∉ dims

/-- A branch with one leaf and no branches below it, of a member of a class in the file that ROOT stores in the way of
code `stype`. -/
structure MemberBranch (sis : List StreamerInfo) (b : Branch) (stype : Int) (m : Streamer) : Prop where
  flat : b.branches = []
  leaf : ∃ v tl id code, b.data.leaves = [.element v tl id code] ∧ (code < 0 ∨ 80 ≤ code ∨ code = 65) ∧
    (91 : Byte) ∉ tl.named.title
  elem : ∃ e, b.elem = some e ∧ e.stype = stype ∧ ClassMember sis e.className m
  name : MemberName b.data.named.name m.element.named.name

/-- The member is described as one of the containers of the standard library, or as its `string`. -/
def IsStl : Streamer → Prop
  | .stl .. | .stlString .. => True
  | _ => False

end Verif
