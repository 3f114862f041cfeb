import Verif.Spec.Containers
import Verif.Spec.Compress
import Verif.Spec.Ranges
/-
Baskets as ROOT stores them in a file: a key, the numbers of the basket, and the entries, compressed or
not.
-/
namespace Verif

/-- A number in two's complement, most significant byte first. -/
def bigEndian (k : Nat) (v : Int) : List Byte := beBytes k (wrapI k v)

/-- A text of ROOT: its length in one byte, or 255 and its length in four, and its bytes. -/
def rootText (s : Str) : List Byte :=
  if s.length < 255 then beBytes 1 s.length ++ s else beBytes 1 255 ++ (beBytes 4 s.length ++ s)

/-- A key, positions being of eight bytes when its version is above 1000. -/
def rootKey (k : Key) (date : Nat) : List Byte :=
  let w := if 1000 < k.rvers then 8 else 4
  bigEndian 4 k.nBytes ++ (bigEndian 2 k.rvers ++ (bigEndian 4 k.objLen ++ (beBytes 4 date ++ (bigEndian 2 k.keyLen ++
    (bigEndian 2 k.cycle ++ (bigEndian w k.seekKey ++ (bigEndian w k.seekPdir ++ (rootText k.cls ++ (rootText k.name ++
    rootText k.title)))))))))

/-- A basket. -/
structure RootBasket where
  key : Key
  date : Nat
  vers : Int := 3
  bufSize : Int
  nevSize : Int
  /-- the bytes of each entry -/
  entries : List (List Byte)
  /-- with a table of where each of them begins? -/
  table : Bool
  /-- the last word of the table, which nobody uses -/
  unused : Int := 0
  /-- compressed? -/
  block : Option Block := none

/-- What is stored: the entries, and the table. -/
def RootBasket.payload (b : RootBasket) : List Byte :=
  b.entries.flatten ++ if b.table then bigEndian 4 (b.entries.length + 1) ++
    ((bounds 0 b.entries).dropLast.flatMap (fun s => bigEndian 4 (s + b.key.keyLen)) ++ bigEndian 4 b.unused) else []

/-- The key and the numbers that follow it: sizes, the number of entries and where they end. -/
def RootBasket.head (b : RootBasket) : List Byte :=
  rootKey b.key b.date ++ (bigEndian 2 b.vers ++ (bigEndian 4 b.bufSize ++ (bigEndian 4 b.nevSize ++
    (bigEndian 4 b.entries.length ++ (bigEndian 4 (b.key.keyLen + b.entries.flatten.length) ++ [0])))))

/-- All bytes of the basket. -/
def RootBasket.record (b : RootBasket) : List Byte :=
  b.head ++ match b.block with
    | none => b.payload
    | some z => z.bytes

/-- The numbers of the basket are right and fit in their fields; a compressed payload is one block, not of
the length it would have uncompressed. -/
structure RootBasket.Ok (dec : Decoders) (b : RootBasket) : Prop where
  key : b.key.InRange
  date : b.date < 2 ^ 32
  vers : InI 2 b.vers ∧ b.vers ≤ 3
  bufSize : InI 4 b.bufSize
  nevSize : InI 4 b.nevSize ∧ 0 ≤ b.nevSize
  keyLen : b.key.keyLen = b.head.length
  objLen : b.key.objLen = b.payload.length
  nBytes : b.key.nBytes = b.record.length
  seekKey : 0 ≤ b.key.seekKey
  fits : b.head.length + b.payload.length < 2 ^ 31
  count : b.entries.length < 2 ^ 31
  unused : b.table = true → InI 4 b.unused ∧ InI 4 (b.unused - b.key.keyLen)
  block : ∀ z, b.block = some z → z.Decodes dec ∧ z.plain = b.payload ∧ z.bytes.length ≠ b.payload.length

/-- The basket is in the file. -/
def RootBasket.In (b : RootBasket) (r : Reader) : Prop :=
  b.Ok r.dec ∧ b.record <+: r.img.drop b.key.seekKey.toNat

/-- The tables of a branch with one leaf list these baskets, and they are in the file. -/
structure Lists (r : Reader) (d : BranchData) (l : Leaf) (bs : List RootBasket) : Prop where
  leaf : d.leaves = [l]
  seek : d.basketSeek = bs.map fun b => b.key.seekKey
  bytes : d.basketBytes = bs.map fun b => b.key.nBytes
  there : ∀ b ∈ bs, b.In r

/-- The baskets have these entries. -/
def Hold {α} (bs : List RootBasket) (enc : α → List Byte) (groups : List (List α)) : Prop :=
  Alike (fun (b : RootBasket) g => b.entries = g.map enc) bs groups

/-! ### The basket kept in the record of a branch -/

/-- The basket that was being filled: it is kept in the record of the branch, not compressed, with what is
in front of the entries in memory. -/
structure KeptBasket where
  key : Key
  date : Nat
  vers : Int := 3
  bufSize : Int
  nevSize : Int
  entries : List (List Byte)
  table : Bool
  /-- what is in memory in front of the entries, as long as a key -/
  front : List Byte

/-- Its bytes: the key, the numbers, what follows (11 when there is a table of positions, 12 when not), the
table, the memory. -/
def KeptBasket.record (b : KeptBasket) : List Byte :=
  rootKey b.key b.date ++ (bigEndian 2 b.vers ++ (bigEndian 4 b.bufSize ++ (bigEndian 4 b.nevSize ++
    (bigEndian 4 b.entries.length ++ (bigEndian 4 (b.key.keyLen + b.entries.flatten.length) ++ ([if b.table then 11 else 12] ++
    ((if b.table ∧ b.entries ≠ [] then bigEndian 4 b.entries.length ++
      (bounds 0 b.entries).dropLast.flatMap (fun s => bigEndian 4 (s + b.key.keyLen)) else []) ++
    (b.front ++ b.entries.flatten))))))))

/-- Its numbers are right and fit in their fields. -/
structure KeptBasket.Ok (b : KeptBasket) : Prop where
  key : b.key.InRange
  date : b.date < 2 ^ 32
  vers : InI 2 b.vers ∧ 2 ≤ b.vers ∧ b.vers ≤ 3
  bufSize : InI 4 b.bufSize
  nevSize : InI 4 b.nevSize ∧ 0 ≤ b.nevSize
  front : b.key.keyLen = b.front.length
  fits : b.front.length + b.entries.flatten.length < 2 ^ 31
  count : b.entries.length < 2 ^ 31

/-- The branch keeps this basket in its record. -/
def KeepsInside (d : BranchData) (k : KeptBasket) : Prop :=
  k.Ok ∧ ∃ bk, readWith Basket.unmarshal k.record = .ok bk ∧ d.baskets = [bk]

/-- A leaf for texts. -/
def Leaf.isText : Leaf → Prop
  | .var .C .. => True
  | _ => False

end Verif
