import Verif.Spec.Baskets
import Verif.Model.Containers
/-
How sets, maps and arrays of varying size are laid out in an entry.
-/
namespace Verif

/-- A header in front of a container: its first byte is 64. -/
structure IsHeader (h : List Byte) : Prop where
  long : 1 < h.length
  first : h.head? = some 64

/-- A number of items and the items. -/
def countedBytes (t : Ty) (l : List t.Val) : List Byte := beBytes 4 l.length ++ l.flatMap (marshalled t)

/-- Texts and vectors have a header of their own when the keys, or the values, of a map are stored one
after the other. -/
def Ty.hasHeader : Ty → Bool
  | .string | .vec _ => true
  | _ => false

/-- The items that are stored without any header: numbers and booleans, and arrays of them. -/
def Ty.isPlain : Ty → Bool
  | .string | .vec _ => false
  | .arr _ t => t.isPlain
  | _ => true

/-- A type whose values can be the keys or the values of a map. -/
def Ty.isMember (t : Ty) : Bool := t.isPlain || t.hasHeader

/-- A map: how many, all the keys, all the values. -/
structure MapLayout (k v : Ty) where
  /-- six bytes before the keys, and before the values, if they have a header -/
  keyHeader : List Byte
  valHeader : List Byte
  pairs : List (k.Val × v.Val)
  /-- whatever follows -/
  rest : List Byte

/-- The bytes of a map. -/
def MapLayout.bytes {k v : Ty} (m : MapLayout k v) : List Byte :=
  beBytes 4 m.pairs.length ++ (m.keyHeader ++ m.pairs.flatMap (fun p => marshalled k p.1)) ++
    (m.valHeader ++ m.pairs.flatMap (fun p => marshalled v p.2)) ++ m.rest

/-- What a header before members of type `t` is. -/
def MemberHeader (t : Ty) (h : List Byte) : Prop :=
  if t.hasHeader then h.length = 6 ∧ h.head? = some 64 else h = []

/-- The map is stored as ROOT does. -/
structure MapLayout.Ok {k v : Ty} (m : MapLayout k v) : Prop where
  few : m.pairs.length < 2 ^ 31
  values : ∀ p ∈ m.pairs, k.Ok p.1 ∧ v.Ok p.2
  keyHeader : m.pairs ≠ [] → MemberHeader k m.keyHeader
  valHeader : m.pairs ≠ [] → MemberHeader v m.valHeader

/-- The last value given for a key. -/
def lastValue {κ ν} [DecidableEq κ] (l : List (κ × ν)) (a : κ) : Option ν :=
  (l.reverse.find? fun p => p.1 = a).map Prod.snd

/-- What a map has for a key. -/
def valueOf {κ ν} [DecidableEq κ] (l : List (κ × ν)) (a : κ) : Option ν :=
  (l.find? fun p => p.1 = a).map Prod.snd

/-- Where entries of these lengths begin, and where the last one ends. -/
def bounds (from' : Nat) : List (List Byte) → List Int
  | [] => [(from' : Int)]
  | e :: es => (from' : Int) :: bounds (from' + e.length) es

/-- Two lists of the same length whose items at the same place are related. -/
def Alike {α β} (R : α → β → Prop) (as : List α) (bs : List β) : Prop :=
  as.length = bs.length ∧ ∀ (i : Nat) a b, as[i]? = some a → bs[i]? = some b → R a b

/-- The baskets in the table of the branch can be read, their leaf satisfies `L`, and they keep the
entries `parts`, with a table of where each of them begins. -/
structure Keeps (r : Reader) (d : BranchData) (L : Slot → Prop) (parts : List (List (List Byte))) : Prop where
  /-- nothing is kept in the record of the branch itself -/
  outside : d.baskets = []
  table : ∃ ss, d.slots = .ok ss ∧ Alike (fun s es => L s ∧
    ∃ b n, s.read r = .ok (b, .unTrust n es.flatten (bounds 0 es))) ss parts

/-- A leaf for objects. -/
def Slot.isObject (s : Slot) : Prop := ∃ a b c d, s.leaf = .element a b c d

/-- A leaf for numbers of `n` bytes. -/
def Slot.isNumber (n : Nat) (s : Slot) : Prop := s.size = n ∧ ∃ k a b c d, k ≠ LeafKind.C ∧ s.leaf = .var k a b c d

/-- The members of a set are those of the list, each once. -/
def SetOf {α} (s l : List α) : Prop := s.Nodup ∧ ∀ x, x ∈ s ↔ x ∈ l

/-- The map has each key once, with the last of its values. -/
def MapOf {κ ν} [DecidableEq κ] (m l : List (κ × ν)) : Prop :=
  (m.map Prod.fst).Nodup ∧ ∀ k, valueOf m k = lastValue l k

end Verif
