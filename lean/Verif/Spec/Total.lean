import Verif.Spec.TreeSession
import Verif.Spec.Dictionary
/-
A program that writes trees to a file, and input that it can store.
-/
namespace Verif

/-- A tree as the user makes it: its name, the number of callbacks, its columns, and where its branches
and leaves are in memory when it is stored. -/
structure TreeIn where
  name : Str
  callbacks : Nat := 0
  cols : List Column
  places : Places

/-- The trees are made and written one after the other. -/
def writeTrees (env : Env) : List TreeIn → Fs Unit
  | [] => pure ()
  | t :: ts => do
    let w ← Fs.lift (buildTree t.name t.callbacks t.cols)
    let _ ← w.write env t.places
    writeTrees env ts

/-- A file is created, the trees are written to it, it is closed. -/
def writeFile (env : Env) (ts : List TreeIn) : Fs Unit := do
  createFile
  writeTrees env ts
  closeFile env

/-- Numbers. -/
def Ty.isNumber : Ty → Bool
  | .i8 | .u8 | .i16 | .u16 | .i32 | .u32 | .i64 | .u64 | .f32 | .f64 => true
  | _ => false

/-- The types of entries that the library supports: numbers, booleans, strings, vectors of numbers, and
arrays (not empty, with less than 2³¹ elements) of numbers or booleans. -/
def Ty.isSupported : Ty → Bool
  | .bool | .string => true
  | .vec e => e.isNumber
  | .arr n e => decide (0 < n) && decide (n < 2 ^ 31) && (e.isNumber || decide (e = .bool))
  | t => t.isNumber

/-- A column that can be stored: its entries are not too long, and there are not too many of them. -/
structure Column.Short (c : Column) : Prop where
  supported : c.ty.isSupported = true
  text : utf8 c.name = true
  name : c.name.length ≤ 1000
  /-- texts are UTF-8 and lengths fit, as they do in Rust -/
  values : ∀ v ∈ c.vals, c.ty.Ok v
  /-- 1002 bytes can be too much for a text or a vector, see C23 -/
  entries : ∀ v ∈ c.vals, (entryBytes c.ty v).length ≤ if c.ty.varies then 1001 else 90000000
  /-- not more baskets than the library can count, see C69 -/
  few : c.ty.varies = false → ∀ v ∈ c.vals, c.vals.length < 32767 * perBasket (entryBytes c.ty v).length

/-- A tree that can be stored. -/
structure TreeIn.Ok (t : TreeIn) : Prop where
  text : utf8 t.name = true
  short : t.name.length ≤ 1000
  /-- no `/` -/
  noSlash : (47 : Byte) ∉ t.name
  /-- no `;`, see C45 -/
  noSemicolon : (59 : Byte) ∉ t.name
  columns : ∀ c ∈ t.cols, c.Short
  /-- in memory, the branches and their leaves are different objects -/
  memory : ∀ i, (t.places i).2.length = 1
  distinct : ((List.range t.cols.length).flatMap fun i => (t.places i).1 :: (t.places i).2).Nodup

/-- Enough room for a column: texts and vectors have a table of their places. -/
def Column.cost (c : Column) : Nat := (if c.ty.varies then 6 * c.bytes else c.bytes + c.bytes / 4) + 14000

/-- Enough room for a tree. -/
def TreeIn.cost (t : TreeIn) : Nat := (t.cols.map Column.cost).sum + 6000

/-- The trees can be stored in one file: they have different names and there is room for them below 2 GB. -/
structure Storables (ts : List TreeIn) : Prop where
  each : ∀ t ∈ ts, t.Ok
  names : (ts.map TreeIn.name).Nodup
  room : (ts.map TreeIn.cost).sum ≤ 1990000000

end Verif
