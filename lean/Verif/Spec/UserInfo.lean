import Verif.Model.UserInfo
import Verif.Spec.Refs
import Verif.Spec.TreeRecords
/-
Trees with user information, as ROOT writes them.
-/
namespace Verif

/-- A `TObjString` somewhere in memory. -/
structure Text where
  addr : Nat
  s : Str

/-- Something attached to a tree: a text, or a map of texts to texts. -/
inductive UserItem where
  | text (t : Text)
  | map (addr : Nat) (name : Str) (pairs : List (Text × Text))

/-- All objects of an item, by address. -/
def UserItem.addrs : UserItem → List Nat
  | .text t => [t.addr]
  | .map a _ pairs => a :: pairs.flatMap fun p => [p.1.addr, p.2.addr]

def Text.Ok (t : Text) : Prop := utf8 t.s = true ∧ t.s.length < 2 ^ 30

def UserItem.Ok : UserItem → Prop
  | .text t => t.Ok
  | .map _ name pairs => utf8 name = true ∧ name.length < 2 ^ 30 ∧ pairs.length < 2 ^ 31 ∧
      ∀ p ∈ pairs, p.1.Ok ∧ p.2.Ok

/-! ROOT's streamers. -/

/-- `TObjString`, version 1. -/
def Text.obj (t : Text) : WObj :=
  { cls := b! "TObjString", addr := t.addr,
    marshal := Wr.framed 1 do
      Wr.drop TObject.default.marshal
      Wr.string t.s }

/-- `TMap`, version 3. -/
def UserItem.obj : UserItem → WObj
  | .text t => t.obj
  | .map addr name pairs =>
    { cls := b! "TMap", addr := addr,
      marshal := Wr.framed 3 do
        Wr.drop TObject.default.marshal
        Wr.string name
        Wr.i32 pairs.length
        Wr.each (fun p => do
          Wr.drop (Wr.objectAny p.1.obj)
          Wr.drop (Wr.objectAny p.2.obj)) pairs }

/-- The list of the user information, a `TList`. -/
def userList (addr : Nat) (name : Str) (items : List UserItem) : WObj :=
  { cls := b! "TList", addr := addr, marshal := TList.marshal TObject.default (some name) (items.map UserItem.obj) }

/-- The record of a tree with user information: after the branches and leaves come five objects that are
not there, the list, and one more that is not there. -/
def TreeData.withUserInfo (t : TreeData) (bs : List PlacedBranch) (list : WObj) : Wr Nat :=
  t.marshalWith bs do
    Wr.each (fun _ => Wr.drop Wr.objectNil) [(), (), (), (), ()]
    Wr.drop (Wr.objectAny list)
    Wr.drop Wr.objectNil

/-- The value of a key: the last one given to it. -/
def lastGiven (pairs : List (Text × Text)) (key : Str) : Option Str :=
  (pairs.reverse.find? fun p => p.1.s == key).map fun p => p.2.s

/-- What the user sees of an item at place `i`. -/
def UserItem.SeenAt (objs : List Obj) (i : Nat) : UserItem → Prop
  | .text t => listAt Obj.asText objs i = .ok t.s
  | .map _ _ pairs => ∃ m, listAt Obj.asMap objs i = .ok m ∧ ∀ key, mapGet Obj.asText m key = .ok (lastGiven pairs key)

end Verif
