import Verif.Spec.Layout
import Verif.Spec.TreeWrite
/-
A branch being written: the calls of `write` on it, between which anything else may be done with the
file, and what its tables must say.
-/
namespace Verif

/-- The branch of column `c` of a tree called `tn` is being written: `n` entries have been taken from its
iterator.  Between two calls of `write` the file may be used in any way (other branches, other trees,
other objects). -/
inductive Writing (env : Env) (tn : Str) (c : Column) : Nat → WBranch → FileW → Prop
  | start {path ops iobits b sis f} : Session env path ops f →
      WBranch.new c.ty c.name (c.vals.map fun v => some (c.ty.marshal v)) iobits = .ok (b, sis) →
      Writing env tn c 0 b f
  | others {n b f ops g} : Writing env tn c n b f → Runs env f ops g → Writing env tn c n b g
  | entry {n b f b' k g} : Writing env tn c n b f → b.write tn f = (.ok (b', some k), g) →
      g.Below2GB → Writing env tn c (n + 1) b' g
  | exhausted {n b f b' g} : Writing env tn c n b f → b.write tn f = (.ok (b', none), g) →
      g.Below2GB → Writing env tn c n b' g

/-- The bytes `marshal` makes of a value. -/
def marshalled (t : Ty) (v : t.Val) : List Byte :=
  match t.marshal v (WBuffer.new 0) with
  | .ok (_, w) => w.p
  | .error _ => []

/-- The bytes of an entry: a vector is preceded by a byte count and a version. -/
def entryBytes (t : Ty) (v : t.Val) : List Byte :=
  match t with
  | .vec e => beBytes 4 (((marshalled (.vec e) v).length + 2) ||| 0x40000000) ++ beBytes 2 9 ++
      marshalled (.vec e) v
  | t => marshalled t v

/-- The bytes of the entries of a column. -/
def Column.bytes (c : Column) : Nat := (c.vals.map fun v => (entryBytes c.ty v).length).sum

/-- The entries of strings and vectors have different lengths. -/
def Ty.varies : Ty → Bool
  | .string | .vec _ => true
  | _ => false

/-- The entries of `w` bytes that go into a basket: as many as leave it below 32768 bytes, at least one. -/
def perBasket (w : Nat) : Nat := max 1 (32767 / w)

/-- The `k` entries from the `i`-th on. -/
def between {α} (l : List α) (i k : Int) : List α := (l.drop i.toNat).take k.toNat

/-- The tables of a branch of the tree `tn` say how the values `vals` are cut into baskets and where these
are. -/
structure BasketTables (tn : Str) {t : Ty} (vals : List t.Val) (d : BranchData) (img : List Byte) : Prop where
  /-- one size and one position per basket, one first entry more -/
  sizes : d.basketEntry.length = d.basketBytes.length + 1 ∧ d.basketSeek.length = d.basketBytes.length
  count : d.writeBasket = d.basketBytes.length
  first : d.basketEntry[0]? = some 0
  mono : ∀ (i : Nat) a b, d.basketEntry[i]? = some a → d.basketEntry[i + 1]? = some b → a ≤ b
  last : ∀ a, d.basketEntry.getLast? = some a → a ≤ vals.length
  /-- at the `i`-th position, a record of the `i`-th size with exactly the entries announced -/
  holds : ∀ (i : Nat) a b pos n, d.basketEntry[i]? = some a → d.basketEntry[i + 1]? = some b →
    d.basketSeek[i]? = some pos → d.basketBytes[i]? = some n →
    ∃ key table, readAt img pos n =
        .ok (key ++ (between vals a (b - a)).flatMap (entryBytes t) ++ table) ∧
      (key.length : Int) = keyLenFor d.named.name tn (b! "TBasket") false false

end Verif
