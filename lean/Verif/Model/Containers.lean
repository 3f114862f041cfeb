import Verif.Model.BranchRead
/-
The other containers an entry can be read as: rbytes/mod.rs 363-426 (`HashSet`, `HashMap`) and
rusty/containers.rs (`Slice`, `SizedSlice`).
-/
namespace Verif

/-- `HashSet::insert`: an element that is there stays.  (The order is that of the first insertions; a
`HashSet` has none.) -/
def setInsert {α} [DecidableEq α] (s : List α) (a : α) : List α := if a ∈ s then s else s ++ [a]

/-- `HashMap::insert`: the value of a key that is there is replaced. -/
def mapInsert {κ ν} [DecidableEq κ] : List (κ × ν) → κ × ν → List (κ × ν)
  | [], p => [p]
  | q :: m, p => if q.1 = p.1 then (q.1, p.2) :: m else q :: mapInsert m p

/-- rbytes/mod.rs 367-377 `Unmarshaler for HashSet<T>` on an empty set; `reserve(size as usize)` aborts
on a negative size. -/
def Rd.set {α} [DecidableEq α] (m : Rd α) : Rd (List α) := do
  Rd.doSkipHeader
  let size ← Rd.i32
  if size < 0 then Rd.panic
  else
    Rd.setSkip none
    let l ← Rd.times size.toNat m
    pure (l.foldl setInsert [])

/-- rbytes/mod.rs 395-425 `Unmarshaler for HashMap<K, V>` on an empty map; `Vec::with_capacity` aborts on
a negative size. -/
def Rd.map {κ ν} [DecidableEq κ] (k : Rd κ) (v : Rd ν) : Rd (List (κ × ν)) := do
  Rd.doSkipHeader
  let size ← Rd.i32
  if size < 0 then Rd.panic
  else
    Rd.setSkip (some 6)
    let keys ← Rd.times size.toNat (do
      let a ← k
      Rd.setSkip (some 0)
      pure a)
    Rd.setSkip (some 6)
    let values ← Rd.times size.toNat (do
      let a ← v
      Rd.setSkip (some 0)
      pure a)
    pure ((keys.zip values).foldl mapInsert [])

/-- The loop of containers.rs 66-72: items until `len` bytes are used; an item that uses more aborts
(debug build), and so does an error in an item (`unwrap`).  Items of no byte would be read for ever, here
they abort when `fuel` is used up. -/
def Rd.sliceLoop {α} (m : Rd α) : Nat → Nat → Rd (List α)
  | _, 0 => pure []
  | 0, _ + 1 => Rd.panic
  | fuel + 1, len + 1 => fun r =>
    match m r with
    | .error _ => .error .panic
    | .ok (a, r') =>
      if r'.c < r.c ∨ len + 1 < r'.c - r.c then .error .panic
      else (do
        let as ← Rd.sliceLoop m fuel (len + 1 - (r'.c - r.c))
        pure (a :: as) : Rd (List α)) r'

/-- containers.rs 59-75 `Unmarshaler for Slice<T>` on an empty slice; the length is that of the rest of
the buffer. -/
def Rd.slice {α} (m : Rd α) : Rd (List α) := do
  Rd.doSkipHeader
  fun r => Rd.sliceLoop m (r.p.length - r.c) (r.p.length - r.c) r

/-- containers.rs 120-126 `Unmarshaler for SizedSlice<T>` made by `new(n)`; an error in an item aborts. -/
def Rd.sizedSlice {α} (n : Nat) (m : Rd α) : Rd (List α) :=
  Rd.times n fun r =>
    match m r with
    | .error _ => .error .panic
    | .ok x => .ok x

/-- `class_name` of `HashSet<T>` (rbytes/mod.rs 379-387). -/
def setClassNames (t : Ty) : List Str :=
  match t.rdClassNames with
  | [] => []
  | c :: _ => [b! "set<" ++ c ++ b! ">"]

/-- `class_name` of `Slice<T>` (containers.rs 77-89). -/
def sliceClassNames (t : Ty) : List Str := t.rdClassNames.map fun c => c ++ b! "[]"

end Verif
