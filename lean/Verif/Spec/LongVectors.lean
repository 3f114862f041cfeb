import Verif.Spec.Baskets
/-
Vectors of many bytes.
-/
namespace Verif

/-- Every value of the type takes at least one byte: it is no array of length zero. -/
def Ty.takesRoom : Ty → Bool
  | .arr n t => n != 0 && t.takesRoom
  | _ => true

/-- An entry of a column of vectors as ROOT and this library store it: the number of bytes that follow, with bit 30
set, the version 9, the number of items and the items. -/
def vectorEntry (t : Ty) (l : List t.Val) : List Byte :=
  let body := beBytes 4 l.length ++ l.flatMap (marshalled t)
  beBytes 4 (2 ^ 30 + (2 + body.length)) ++ beBytes 2 9 ++ body

end Verif
