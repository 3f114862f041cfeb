import Verif.Model.Derive
import Verif.Spec.TreeWrite
/-
What the user of the derive macros has in mind: the fields that are stored in branches, and their names.
-/
namespace Verif

mutual
/-- The fields that are stored in branches, in order: in how many structures inside the outermost one the
field is, and how its value is written. -/
def Shape.leaves : (s : Shape) → List (Nat × (s.Val → Wr Nat))
  | .leaf t => [(0, t.marshal)]
  | .struct _ fs => fs.leaves.map fun x => (x.1 + 1, x.2)
def Fields.leaves : (fs : Fields) → List (Nat × (fs.Val → Wr Nat))
  | .nil => []
  | .cons _ s fs => (s.leaves.map fun x => (x.1, fun v => x.2 v.1)) ++
      (fs.leaves.map fun x => (x.1, fun v => x.2 v.2))
end

/-- A field that is stored in a branch: in how many structures inside the outermost one it is, its name, its
type, and its value in a structure. -/
structure FieldSlot (α : Type) where
  depth : Nat
  name : Str
  ty : Ty
  get : α → ty.Val

/-- The same field of a structure that is part of another. -/
def FieldSlot.within {α β : Type} (p : β → α) (k : Nat) (x : FieldSlot α) : FieldSlot β :=
  ⟨x.depth + k, x.name, x.ty, fun v => x.get (p v)⟩

mutual
/-- The fields that are stored in branches, with the names under which they are stored: a structure does not
add its name. -/
def Shape.slots : (s : Shape) → Str → List (FieldSlot s.Val)
  | .leaf t, n => [⟨0, n, t, fun v => v⟩]
  | .struct _ fs, _ => fs.slots.map (.within (fun v => v) 1)
def Fields.slots : (fs : Fields) → List (FieldSlot fs.Val)
  | .nil => []
  | .cons o s fs => (s.slots o.name).map (.within Prod.fst 0) ++ fs.slots.map (.within Prod.snd 0)
end

/-- The values of a field in all structures. -/
def FieldSlot.column {α : Type} (x : FieldSlot α) (rows : List α) : Column := ⟨x.ty, x.name, rows.map x.get⟩

/-- The documented name of a field: the name of the structure it is in and a dot, then the prefix of the
field or else of the structure, then its name; an absolute name stands for itself, with the prefix of
the field. -/
def documentedName (o : FieldOpts) (structPrefix : Option Str) (parent : Option Str) : Str :=
  match o.absolute with
  | some a => o.branchPrefix.getD [] ++ a
  | none =>
    (match parent with
      | none => []
      | some p => p ++ b! ".") ++
    (o.branchPrefix.or structPrefix).getD [] ++ o.rename.getD o.name

mutual
/-- The documented names of all fields that are stored in branches. -/
def Shape.documentedNames : Shape → Str → List Str
  | .leaf _, n => [n]
  | .struct g fs, n => fs.documentedNames g (some n)
def Fields.documentedNames : Fields → Option Str → Option Str → List Str
  | .nil, _, _ => []
  | .cons o s fs, g, parent => s.documentedNames (documentedName o g parent) ++ fs.documentedNames g parent
end

/-- All fields are stored in branches. -/
def Fields.Flat : Fields → Prop
  | .nil => True
  | .cons _ (.leaf _) fs => fs.Flat
  | .cons _ (.struct ..) _ => False

/-- No attributes are used. -/
def FieldOpts.plain (o : FieldOpts) : Prop := o.rename = none ∧ o.branchPrefix = none ∧ o.absolute = none

/-- No field has attributes. -/
def Fields.Plain : Fields → Prop
  | .nil => True
  | .cons o _ fs => o.plain ∧ fs.Plain

/-- The columns of a flat structure: for each field its type, its name and its values. -/
def Fields.columns : (fs : Fields) → List fs.Val → List Column
  | .nil, _ => []
  | .cons o (.leaf t) fs, rows => ⟨t, o.name, rows.map Prod.fst⟩ :: fs.columns (rows.map Prod.snd)
  | .cons _ (.struct ..) fs, rows => fs.columns (rows.map Prod.snd)

/-- How many values of a field are stored, of `n` structures: all of them, except that a field that is
`d ≥ 2` structures deep loses its last `d - 1`; and none at all if no field is directly in the outermost
structure. -/
def Fields.storedCount (fs : Fields) (n d : Nat) : Nat :=
  if fs.slots.any (fun x => x.depth == 0) then n + 1 - d else 0

/-- What is stored of the fields of structures. -/
def Fields.kept (fs : Fields) (rows : List fs.Val) : List Column :=
  fs.slots.map fun x => ⟨x.ty, x.name, (rows.map x.get).take (fs.storedCount rows.length x.depth)⟩

end Verif
