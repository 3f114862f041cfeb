import Verif.Model.DeriveRead
import Verif.Spec.Derive
import Verif.Spec.Total
/-
What the user of a derived reader has in mind: the structures, and the columns they are put together from.
-/
namespace Verif

mutual
/-- The columns in which values are stored: one per field that is stored in a branch, under its
documented name. -/
def Shape.stored : (s : Shape) → Str → List s.Val → List Column
  | .leaf t, n, rows => [⟨t, n, rows⟩]
  | .struct g fs, n, rows => fs.stored g (some n) rows
def Fields.stored : (fs : Fields) → Option Str → Option Str → List fs.Val → List Column
  | .nil, _, _, _ => []
  | .cons o s fs, g, parent, rows =>
    s.stored (documentedName o g parent) (rows.map Prod.fst) ++ fs.stored g parent (rows.map Prod.snd)
end

/-- The iterator gives these values and then ends. -/
def Gives {α} (it : Nat → Option α) (rows : List α) : Prop := ∀ i, it i = rows[i]?

/-- The branch of this name has these values, of this type. -/
def Holding (r : Reader) (bs : List Branch) (c : Column) : Prop :=
  ∃ b top, lookupTop bs c.name = some (b, top) ∧
    b.asIter r top (some c.ty.rdClassNames) c.ty.unmarshal = .ok c.vals

/-- Names that mean nothing special to the reader: no `[` and no `]`. -/
def PlainName (n : Str) : Prop := (91 : Byte) ∉ n ∧ (93 : Byte) ∉ n

/-- A structure is written: a file is created, the values are given to a tree, the tree is written, the
file is closed. -/
def writeRows (env : Env) (s : Shape) (name : Str) (rows : List s.Val) (places : Places) : Fs Unit := do
  createFile
  let w ← Fs.lift (s.toTree rows (WTree.new name))
  let _ ← w.write env places
  closeFile env

/-! ### Slices -/

/-- The slices of a field of the structures of each entry. -/
structure SliceColumn where
  ty : Ty
  name : Str
  vals : List (List ty.Val)

/-- The columns in which lists of structures are stored: for each field and each entry, the values of the
field in the structures of the entry. -/
def Fields.storedSlices : (fs : Fields) → Option Str → Option Str → List (List fs.Val) → List SliceColumn
  | .nil, _, _, _ => []
  | .cons o (.leaf t) fs, g, parent, rows =>
    ⟨t, documentedName o g parent, rows.map (List.map Prod.fst)⟩ ::
      fs.storedSlices g parent (rows.map (List.map Prod.snd))
  | .cons _ (.struct ..) fs, g, parent, rows => fs.storedSlices g parent (rows.map (List.map Prod.snd))

/-- The branch of this name has these slices. -/
def HoldingSlices (r : Reader) (bs : List Branch) (c : SliceColumn) : Prop :=
  ∃ b top, lookupTop bs c.name = some (b, top) ∧
    b.asIter r top (some (sliceClassNames c.ty)) (Rd.slice c.ty.unmarshal) = .ok c.vals

end Verif
