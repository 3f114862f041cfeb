import Verif.Model.BranchLookup
import Verif.Model.Interpret
import Verif.Model.Open
/-
The listing of a tree and the programs `oxyroot-ls` and `oxyroot-dump`: rtree/tree/reader.rs 103-123,
oxyroot-ls/src/main.rs, oxyroot-dump/src/main.rs.

What is printed is a list of records; the layout of the lines (`println!`, `{:?}` of the values) is left
out.  A program that aborts has printed some lines before, which are left out too.
-/
namespace Verif

/-! ### The listing, reader.rs 103-123 -/

/-- `String::truncate`: aborts inside of a character. -/
def truncateStr (n : Nat) (s : Str) : Res Str :=
  match s[n]? with
  | none => .ok s
  | some b => if 128 ≤ b ∧ b < 192 then .error .panic else .ok (s.take n)

/-- A line of the listing: name, type, Rust type. -/
structure ShowLine where
  name : Str
  type : Str
  rust : Str
  deriving DecidableEq, Repr

/-- reader.rs 111-120 `show_one_branch`. -/
def Branch.showLine (r : Reader) (top : Bool) (b : Branch) : Res ShowLine := do
  let n ← b.itemTypeName r top
  let n ← truncateStr 30 n
  let s ← b.interpretation r top
  pure { name := b.name, type := n, rust := s }

/-- reader.rs 103-123 `show`; `top` says which branches know that they are not inside another. -/
def showTree (r : Reader) (top : Branch → Bool) (branches : List Branch) : Res (List ShowLine) :=
  collect ((branchesR branches).map fun b => b.showLine r (top b))

/-! ### The type a branch is dumped as, oxyroot-dump/src/main.rs 94-1555 -/

/-- The Rust types the program knows. -/
inductive DumpTy where
  | of (t : Ty)
  | slice (t : Ty)
  | set (t : Ty)
  | vecSet (t : Ty)
  | map (k : Ty) (v : DumpTy)
  | sized (n : Nat) (t : Ty)
  deriving DecidableEq, Repr

/-- The values of such a type. -/
abbrev DumpTy.Val : DumpTy → Type
  | .of t => t.Val
  | .slice t => List t.Val
  | .set t => List t.Val
  | .vecSet t => List (List t.Val)
  | .map k v => List (k.Val × v.Val)
  | .sized _ t => List t.Val

/-- `PartialEq` of the values. -/
def Ty.decEqVal : (t : Ty) → DecidableEq t.Val
  | .bool => inferInstanceAs (DecidableEq Bool)
  | .i8 | .i16 | .i32 | .i64 => inferInstanceAs (DecidableEq Int)
  | .u8 | .u16 | .u32 | .u64 | .f32 | .f64 => inferInstanceAs (DecidableEq Nat)
  | .string => inferInstanceAs (DecidableEq (List UInt8))
  | .vec t => @instDecidableEqList _ t.decEqVal
  | .arr _ t => @instDecidableEqList _ t.decEqVal

/-- `Unmarshaler` of these types: `Values`, `Containers`. -/
def DumpTy.unmarshal : (t : DumpTy) → Rd t.Val
  | .of t => t.unmarshal
  | .slice t => Rd.slice t.unmarshal
  | .set t => @Rd.set _ t.decEqVal t.unmarshal
  | .vecSet t => Rd.vec (@Rd.set _ t.decEqVal t.unmarshal)
  | .map k v => @Rd.map _ _ k.decEqVal k.unmarshal v.unmarshal
  | .sized n t => Rd.sizedSlice n t.unmarshal

/-- `class_name` of these types; a `HashMap` has none. -/
def DumpTy.classNames : DumpTy → Option (List Str)
  | .of t => some t.rdClassNames
  | .slice t => some (sliceClassNames t)
  | .set t => some (setClassNames t)
  | .vecSet t => some ((setClassNames t).map fun c => b! "vector<" ++ c ++ b! ">")
  | .map .. | .sized .. => none

/-- The items of the table: `u8`, `i8`, ... are listed in the order of the source. -/
def dumpAtoms : List (Str × Ty) :=
  [(b! "u8", .u8), (b! "i8", .i8), (b! "i32", .i32), (b! "u32", .u32), (b! "i16", .i16), (b! "u16", .u16),
   (b! "bool", .bool), (b! "f32", .f32), (b! "f64", .f64), (b! "String", .string), (b! "TString", .string)]

/-- Those of sets and keys of maps. -/
def dumpKeys : List (Str × Ty) :=
  [(b! "u8", .u8), (b! "i8", .i8), (b! "i32", .i32), (b! "u32", .u32), (b! "i16", .i16), (b! "u16", .u16),
   (b! "bool", .bool), (b! "String", .string), (b! "TString", .string)]

/-- The 62 types that are also values of maps. -/
def dumpValues : List (Str × DumpTy) :=
  (dumpAtoms.flatMap fun p =>
    [(p.1, .of p.2), (b! "Vec<" ++ p.1 ++ b! ">", .of (.vec p.2)),
     (b! "Vec<Vec<" ++ p.1 ++ b! ">>", .of (.vec (.vec p.2))), (b! "Slice<" ++ p.1 ++ b! ">", .slice p.2)]) ++
  dumpKeys.flatMap fun p =>
    [(b! "HashSet<" ++ p.1 ++ b! ">", .set p.2), (b! "Vec<HashSet<" ++ p.1 ++ b! ">>", .vecSet p.2)]

/-- main.rs 136-1510: the 622 arms of the `match`, which are all the combinations below and no others
(checked against the source with a script; no name occurs twice, so their order does not matter). -/
def dumpTable : List (Str × DumpTy) :=
  dumpValues ++ [(b! "u64", .of .u64), (b! "i64", .of .i64)] ++
  dumpKeys.flatMap fun k => dumpValues.map fun v => (b! "HashMap<" ++ k.1 ++ b! "," ++ v.1 ++ b! ">", .map k.2 v.2)

/-- main.rs 1512-1513: the first match of `\[([A-Za-z0-9]+);([0-9]+)\]`, anywhere in the text; its two groups.
`[` is 91, `;` is 59, `]` is 93. -/
def findArray : Str → Option (Str × Str)
  | [] => none
  | b :: s =>
    if b = 91 then
      let item := s.takeWhile fun c => isAlphaByte c || isDigitByte c
      let rest := s.dropWhile fun c => isAlphaByte c || isDigitByte c
      let num := (rest.drop 1).takeWhile isDigitByte
      let rest' := (rest.drop 1).dropWhile isDigitByte
      if item ≠ [] ∧ rest.head? = some 59 ∧ num ≠ [] ∧ rest'.head? = some 93 then some (item, num)
      else findArray s
    else findArray s

/-- `str::parse::<usize>` on digits, `unwrap`ped. -/
def parseDigits (s : Str) : Res Nat :=
  if digitsVal s < 2 ^ 64 then .ok (digitsVal s) else .error .panic

/-- main.rs 1517-1530: the items of arrays. -/
def dumpItems : List (Str × Ty) :=
  [(b! "bool", .bool), (b! "i32", .i32), (b! "u32", .u32), (b! "i64", .i64), (b! "u64", .u64), (b! "f64", .f64),
   (b! "f32", .f32), (b! "i16", .i16), (b! "u16", .u16), (b! "i8", .i8), (b! "u8", .u8), (b! "String", .string),
   (b! "TString", .string)]

/-- main.rs 136-1549: the type for what `interpretation` gives; nothing if the program leaves the branch
out. -/
def dumpType (s : Str) : Res (Option DumpTy) :=
  match dumpTable.lookup s with
  | some t => .ok (some t)
  | none =>
    match findArray s with
    | none => .ok none
    | some (item, num) => do
      let n ← parseDigits num
      match dumpItems.lookup item with
      | none => pure none
      | some t => pure (some (.sized n t))

/-- A value with its type. -/
structure Cell where
  ty : DumpTy
  val : ty.Val

/-- main.rs 94-132: the iterator of the type, run to its end; a branch that refuses the type aborts
(`unwrap`).  Simplified: a column with more values than the tree has entries is read to its end too, while
the program stops after the last entry. -/
def DumpTy.cells (t : DumpTy) (r : Reader) (top : Bool) (b : Branch) : Res (List Cell) := do
  let vs ← (match t with
    | .sized .. => b.getBasket r t.unmarshal
    | _ => b.asIter r top t.classNames t.unmarshal).unwrap
  pure (vs.map fun v => ⟨t, v⟩)

/-- main.rs 115-1554 `ZipperDumperItem::new`: the name of the branch and its values. -/
def Branch.dumpColumn (r : Reader) (top : Bool) (b : Branch) : Res (Option (Str × List Cell)) := do
  let s ← b.interpretation r top
  match ← dumpType s with
  | none => pure none
  | some t => do
    let vs ← t.cells r top b
    pure (some (b.name, vs))

/-- A printed line: the round, the name of the branch, the value or `None`. -/
structure DumpLine where
  round : Nat
  name : Str
  cell : Option Cell

/-- main.rs 1557-1586 `ZiperDumperBranch`. -/
def dumpTree (r : Reader) (top : Branch → Bool) (entries : Int) (branches : List Branch) : Res (List DumpLine) := do
  let cols ← collect ((branchesR branches).map fun b => b.dumpColumn r (top b))
  let cols := cols.filterMap id
  pure ((List.range entries.toNat).flatMap fun i => cols.map fun c => ⟨i, c.1, c.2[i]?⟩)

/-! ### The programs -/

/-- oxyroot-ls/src/main.rs 46-56: for every key its class, name and title, and the listing of the tree. -/
def lsFile (dec : Decoders) (fuel : Nat) (top : Branch → Bool) (f : FileR) : Res (List (Str × Str × Str × List ShowLine)) :=
  collect (f.dir.keys.map fun k => do
    let t ← (f.getTree dec fuel k.name).unwrap
    let s ← showTree (f.reader dec) top t.2.1
    pure (k.cls, k.name, k.title, s))

/-- oxyroot-dump/src/main.rs 1613-1626: for every key its name, the listing of the tree and its entries. -/
def dumpFile (dec : Decoders) (fuel : Nat) (top : Branch → Bool) (f : FileR) :
    Res (List (Str × List ShowLine × List DumpLine)) :=
  collect (f.keysName.map fun name => do
    let t ← (f.getTree dec fuel name).unwrap
    let s ← showTree (f.reader dec) top t.2.1
    let d ← dumpTree (f.reader dec) top t.1.entries t.2.1
    pure (name, s, d))

end Verif
