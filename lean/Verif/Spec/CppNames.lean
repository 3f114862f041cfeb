import Verif.Model.Containers
/-
How C++ spells the types of columns, and the Rust types they correspond to.
-/
namespace Verif

/-- The spellings of the numbers and of `string` that are understood. -/
def cppSpellings : List (Str × Ty) :=
  [(b! "bool", .bool), (b! "float", .f32), (b! "double", .f64), (b! "string", .string),
   (b! "short", .i16), (b! "unsigned short", .u16), (b! "int", .i32), (b! "unsigned int", .u32),
   (b! "long", .i64), (b! "unsigned long", .u64),
   (b! "int8_t", .i8), (b! "uint8_t", .u8), (b! "int16_t", .i16), (b! "uint16_t", .u16),
   (b! "int32_t", .i32), (b! "uint32_t", .u32), (b! "int64_t", .i64), (b! "uint64_t", .u64)]

/-- The ways ROOT spells the 8-bit numbers and the numbers of `long long`. -/
def cppOthers : List Str :=
  [b! "char", b! "signed char", b! "unsigned char", b! "long long", b! "unsigned long long", b! "Long64_t", b! "ULong64_t"]

/-- A vector of vectors of ... of `s`, with some spaces after each closing bracket. -/
def spelled : List Nat → Str → Str
  | [], s => s
  | k :: ks, s => b! "vector<" ++ spelled ks s ++ b! ">" ++ List.replicate k 32

/-- A set of them. -/
def spelledSet (k : Nat) (ks : List Nat) (s : Str) : Str := b! "set<" ++ spelled ks s ++ b! ">" ++ List.replicate k 32

/-- The name C++ gives to a map, with some spaces after the closing bracket; `body` names the keys and the values. -/
def spelledMap (body : Str) (k : Nat) : Str := b! "map<" ++ body ++ b! ">" ++ List.replicate k 32

/-- `Vec<Vec<...<t>>>`. -/
def nestedVec : Nat → Ty → Ty
  | 0, t => t
  | d + 1, t => .vec (nestedVec d t)

/-- The codes of ROOT for members of classes of these types. -/
def memberCodes : List (Int × Ty) :=
  [(1, .i8), (2, .i16), (3, .i32), (4, .i64), (5, .f32), (8, .f64), (11, .u8), (12, .u16), (13, .u32), (14, .u64),
   (15, .u32)]

/-- The codes of ROOT for `Long64_t`, `ULong64_t`, `bool`, `Double32_t` and `Float16_t`. -/
def otherCodes : List Int := [16, 17, 18, 9, 19]

/-- A column of a member of a class, with the code of its type and the title of its leaf: it has no columns
below it. -/
structure MemberColumn (b : Branch) (code : Int) (title : Str) : Prop where
  flat : b.branches = []
  elem : b.elem ≠ none
  leaf : ∃ v tl id, b.data.leaves = [.element v tl id code] ∧ tl.named.title = title

/-- A column of a class whose name is known to be `s`: from the description of the class that has the member, or
if there is none from the column itself. -/
structure NamedColumn (r : Reader) (b : Branch) (s : Str) : Prop where
  flat : b.branches = []
  leaf : ∃ v tl id code, b.data.leaves = [.element v tl id code] ∧ (code < 0 ∨ 80 ≤ code) ∧ (91 : Byte) ∉ tl.named.title
  elem : ∃ e, b.elem = some e ∧ (e.stype = 300 ∨ e.stype = -1) ∧
    ((e.streamer r b.data.named.name = none ∧ e.className = s) ∨
      ∃ m, e.streamer r b.data.named.name = some m ∧ m.element.ename = s)

end Verif
