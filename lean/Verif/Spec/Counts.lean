import Verif.Model.Session
/-
The objects the writer supports, and what it means that writing one reports the bytes it appended.
-/
namespace Verif

/-- A successful write keeps what is in the buffer, and returns the number of bytes it appended. -/
def CountsItsBytes (m : Wr Nat) : Prop :=
  ∀ (w w' : WBuffer) (n : Nat), w.c = w.p.length → m w = .ok (n, w') →
    ∃ bs, w'.p = w.p ++ bs ∧ bs.length = n

/-- Writing an object of one of the supported kinds: values of any streamable type, base objects,
records of the file, streamers, containers of objects, leaves, baskets, branches, trees, and any of
these behind a class tag. -/
inductive Marshalling : Wr Nat → Prop
  | value (t : Ty) (v : t.Val) : Marshalling (t.marshal v)
  | tobject (o : TObject) : Marshalling o.marshal
  | named (n : TNamed) : Marshalling n.marshal
  | attLine (a : AttLine) : Marshalling a.marshal
  | attFill (a : AttFill) : Marshalling a.marshal
  | attMarker (a : AttMarker) : Marshalling a.marshal
  | ioFeatures (n : Nat) : Marshalling (TioFeatures.marshal n)
  | key (k : Key) : Marshalling k.marshal
  | segment (s : FreeSegments) : Marshalling s.marshal
  | fileHeader (h : FileHeader) : Marshalling h.marshal
  | dir (d : Dir) : Marshalling d.marshal
  | streamerElement (e : StreamerElement) : Marshalling e.marshal
  | streamer (s : Streamer) : Marshalling s.marshal
  | streamerInfo (s : StreamerInfo) : Marshalling s.marshal
  | list (o : TObject) (name : Option Str) (objs : List WObj) :
      (∀ x ∈ objs, Marshalling x.marshal) → Marshalling (TList.marshal o name objs)
  | objArray (o : TObject) (name : Option Str) (low : Int) (objs : List WObj) :
      (∀ x ∈ objs, Marshalling x.marshal) → Marshalling (TObjArray.marshal o name low objs)
  | tleaf (t : TLeaf) : Marshalling t.marshal
  | leaf (l : Leaf) : Marshalling l.marshal
  | basket (b : Basket) : Marshalling b.marshal
  | branch (b : Branch) (addrs : List Nat) : Marshalling (b.marshal addrs)
  | tree (t : TreeData) (bs : List PlacedBranch) : Marshalling (t.marshal bs)
  | tagged (o : WObj) : Marshalling o.marshal → Marshalling (Wr.objectAny o)

end Verif
