import Verif.Model.Containers
/-
The Rust type a branch is shown as: rtree/streamer_type.rs 279-332, rtree/branch/mod.rs 95-98.
-/
namespace Verif

/-- `str::find`: the place of the first occurrence. -/
def findStr (pat : Str) : Str → Option Nat
  | [] => if pat = [] then some 0 else none
  | b :: s => if pat.isPrefixOf (b :: s) then some 0 else (findStr pat s).map (· + 1)

/-- streamer_type.rs 289-301. -/
def rustPairs : List (Str × Str) :=
  [(b! "uint64_t", b! "u64"), (b! "int64_t", b! "i64"), (b! "uint32_t", b! "u32"), (b! "int32_t", b! "i32"),
   (b! "uint16_t", b! "u16"), (b! "int16_t", b! "i16"), (b! "uint8_t", b! "u8"), (b! "int8_t", b! "i8"),
   (b! "float", b! "f32"), (b! "double", b! "f64"), (b! "bool", b! "bool")]

/-- streamer_type.rs 303-328, one round; `unwrap` aborts when no `]` follows.  `ret.get(..)` is on the
boundaries of characters. -/
def rustStep (p : Str × Str) (s : Str) : Res Str :=
  let rust := p.2
  let s := replaceStr s p.1 rust
  let s := replaceStr s (rust ++ b! "[]") (b! "Slice<" ++ rust ++ b! ">")
  match findStr (rust ++ b! "[") s with
  | none => .ok s
  | some i =>
    let right := s.drop (i + rust.length + 1)
    if right.head? = some 93 then .ok s
    else
      let inner := right.takeWhile fun c => c ≠ 93
      if inner.length = right.length then .error .panic
      else .ok (replaceStr s (rust ++ b! "[" ++ inner ++ b! "]") (b! "[" ++ rust ++ b! ";" ++ inner ++ b! "]"))

/-- streamer_type.rs 281-332 `type_name_cpp_to_rust`. -/
def rustTypeName (s : Str) : Res Str := do
  let s := cleanTypeName s
  let s := replaceStr s (b! "string") (b! "String")
  let s := replaceStr s (b! "vector") (b! "Vec")
  let s := replaceStr s (b! "map") (b! "HashMap")
  let s := replaceStr s (b! "set") (b! "HashSet")
  let s ← rustPairs.foldlM (fun s p => rustStep p s) s
  pure (replaceStr s (b! "char*") (b! "String"))

/-- rtree/branch/mod.rs 95-98 `interpretation`. -/
def Branch.interpretation (r : Reader) (top : Bool) (b : Branch) : Res Str := do
  let n ← b.itemTypeName r top
  rustTypeName n

end Verif
