import Verif.Spec.Reopen
import Verif.Spec.RootBaskets
/-
Walking through a file record by record, as ROOT does to list or to recover a file (`TFile::Map`,
`TFile::Recover`): each record begins with its size, and the next one is behind it.
-/
namespace Verif

/-- A record: its key, its date as stored, and the object behind the key. -/
structure FileRecord where
  key : Key
  date : Nat
  object : List Byte

/-- The record is in the file where its key says: the key comes first, with a size of four bytes, then, up
to the end of the record, the object.  Keys have version 4: positions of four bytes. -/
structure FileRecord.In (r : FileRecord) (file : List Byte) : Prop where
  there : rootKey r.key r.date <+: file.drop r.key.seekKey.toNat
  version : r.key.rvers = 4
  position : 0 ≤ r.key.seekKey ∧ InI 4 r.key.seekKey
  size : 0 < r.key.nBytes ∧ InI 4 r.key.nBytes
  length : r.key.objLen = r.object.length
  object : r.object <+: file.drop (r.key.seekKey + r.key.nBytes - r.key.objLen).toNat
  room : ((rootKey r.key r.date).length : Int) + r.object.length ≤ r.key.nBytes
  inside : r.key.seekKey + r.key.nBytes ≤ file.length

/-- Walking from one position to another meets these records, and nothing between them. -/
inductive Walk (file : List Byte) : Int → List FileRecord → Int → Prop
  | done {pos : Int} : Walk file pos [] pos
  | step {pos last : Int} {r : FileRecord} {rs : List FileRecord} : r.In file → r.key.seekKey = pos →
      Walk file (pos + r.key.nBytes) rs last → Walk file pos (r :: rs) last

/-- The record has this class, name and title. -/
def FileRecord.Labelled (r : FileRecord) (cls name title : Str) : Prop :=
  r.key.cls = cls ∧ r.key.name = name ∧ r.key.title = title

/-- Something a call stores: its labels, and its bytes behind a key of a given length. -/
structure StoredItem where
  cls : Str
  name : Str
  title : Str
  bytes : Int → List Byte → Prop

/-- What a call on `f` stores if it succeeds: an object as it is written, or a basket, the entries of which come
first. -/
def Op.items (env : Env) (f : FileW) (op : Op) : List StoredItem :=
  match op, (op.run env f).1 with
  | .put name obj, .ok _ => [⟨obj.cls, storedName name obj, obj.title, fun keyLen bs =>
      ∃ n w, obj.marshal (WBuffer.new keyLen.toNat) = .ok (n, w) ∧ w.p = bs⟩]
  | .basket b, .ok _ => [⟨b! "TBasket", b.basket.key.name, b.basket.key.title, fun _ bs =>
      b.wbuf.c = b.wbuf.p.length → b.wbuf.p <+: bs⟩]
  | _, _ => []

/-- What the calls store, one after the other. -/
def storedItems (env : Env) : FileW → List Op → List StoredItem
  | _, [] => []
  | f, op :: ops => op.items env f ++ storedItems env (op.run env f).2 ops

/-- The record is that of the item, in the top directory. -/
structure StoredItem.Is (i : StoredItem) (r : FileRecord) : Prop where
  labels : r.Labelled i.cls i.name i.title
  parent : r.key.seekPdir = 100
  bytes : i.bytes r.key.keyLen r.object

/-- Two lists, element by element. -/
inductive Pairs {α β : Type} (R : α → β → Prop) : List α → List β → Prop
  | nil : Pairs R [] []
  | cons {a b as bs} : R a b → Pairs R as bs → Pairs R (a :: as) (b :: bs)

end Verif
