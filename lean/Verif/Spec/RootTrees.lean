import Verif.Spec.RootBaskets
import Verif.Spec.TreeRecords
import Verif.Spec.Refs
/-
Trees as ROOT writes them: branches inside branches to any depth, records of several versions, baskets kept
in the records of branches, leaves and branches that refer to others.
-/
namespace Verif

/-- A step for some versions only. -/
def Wr.when (c : Prop) [Decidable c] (m : Wr Unit) : Wr Unit := if c then m else pure ()

/-- A pointer to an object that was written before, given by where that is, or to nothing. -/
def rootPointer : Option Nat → Wr Unit
  | none => Wr.u32 0
  | some pos => Wr.u32 pos

/-- Such a place. -/
def PointerOk (p : Option Nat) : Prop := ∀ pos, p = some pos → 2 ≤ pos ∧ pos < 2 ^ 30

/-- An array of `n` objects, a `TObjArray` of version 3. -/
def rootArray (n : Nat) (items : Wr Unit) : Wr Unit := Wr.drop <| Wr.framed 3 do
  Wr.drop TObject.default.marshal
  Wr.string []
  Wr.i32 n
  Wr.i32 0
  items

/-- A leaf, somewhere in memory, and the leaf that counts its items. -/
structure RootLeaf where
  addr : Nat
  leaf : Leaf
  counter : Option Nat := none

/-- `TLeaf`, version 2. -/
def RootLeaf.base (l : RootLeaf) : Wr Unit := Wr.drop <| Wr.framed 2 do
  Wr.drop l.leaf.tleaf.named.marshal
  Wr.i32 l.leaf.tleaf.len
  Wr.i32 l.leaf.tleaf.etype
  Wr.i32 l.leaf.tleaf.offset
  Wr.bool l.leaf.tleaf.hasRange
  Wr.bool l.leaf.tleaf.unsigned
  rootPointer l.counter

/-- `TLeafElement` and `TLeafI` and the like, version 1. -/
def RootLeaf.obj (l : RootLeaf) : WObj :=
  { cls := l.leaf.cls, addr := l.addr,
    marshal := Wr.framed 1 do
      l.base
      match l.leaf with
      | .base _ => pure ()
      | .element _ _ id ltype => do
        Wr.i32 id
        Wr.i32 ltype
      | .var k _ _ min max => do
        k.put min
        k.put max }

def RootLeaf.Ok (l : RootLeaf) : Prop := l.leaf.Storable ∧ PointerOk l.counter

/-- The basket as it is read on its own. -/
def KeptBasket.basket (b : KeptBasket) : Basket :=
  match readWith Basket.unmarshal b.record with
  | .ok bk => bk
  | .error _ => {}

/-- What a `TBranchElement` adds, and the branches that count its items. -/
structure RootElement where
  vers : Int := 10
  elem : BranchElem
  counter : Option Nat := none
  counter2 : Option Nat := none

/-- The version of the class has two bytes since version 10, four before. -/
def RootElement.putVersion (e : RootElement) : Wr Unit :=
  if 10 ≤ e.vers then Wr.i16 e.elem.clsver else Wr.i32 e.elem.clsver

def RootElement.write (e : RootElement) : Wr Unit := do
  Wr.string e.elem.className
  Wr.string e.elem.parent
  Wr.string e.elem.clones
  Wr.i32 e.elem.chksum
  e.putVersion
  Wr.i32 e.elem.id
  Wr.i32 e.elem.btype
  Wr.i32 e.elem.stype
  Wr.i32 e.elem.max
  rootPointer e.counter
  rootPointer e.counter2

structure RootElement.Ok (e : RootElement) : Prop where
  vers : 2 ≤ e.vers ∧ e.vers ≤ 10
  elem : e.elem.Storable
  counter : PointerOk e.counter
  counter2 : PointerOk e.counter2

/-- A branch without the branches inside it.  The leaves and baskets are not those in `data`. -/
structure BranchShape where
  addr : Nat
  vers : Int := 13
  /-- names, sizes, and the tables, with as many slots as there are -/
  data : BranchData
  leaves : List RootLeaf
  /-- slots of baskets that were written, and baskets being filled -/
  kept : List (Option (Nat × KeptBasket)) := []
  elem : Option RootElement := none

/-- A branch and those inside. -/
inductive RootBranch where
  | mk (shape : BranchShape) (sub : List RootBranch)

def RootBranch.shape : RootBranch → BranchShape
  | .mk s _ => s

def RootBranch.sub : RootBranch → List RootBranch
  | .mk _ l => l

def BranchShape.cls (s : BranchShape) : Str :=
  match s.elem with
  | none => b! "TBranch"
  | some _ => b! "TBranchElement"

/-- A slot of the array of baskets. -/
def keptSlot : Option (Nat × KeptBasket) → Wr Unit
  | none => rootPointer none
  | some (addr, k) => Wr.drop <| Wr.objectAny
    { cls := b! "TBasket", addr := addr, marshal := do
        Wr.bytes k.record
        pure k.record.length }

/-- A table with all its slots, behind a one. -/
def rootTable (put : Int → Wr Unit) (l : List Int) : Wr Unit := do
  Wr.i8 1
  Wr.each put l

/-- `TBranch`; `sub` writes the `n` branches inside. -/
def BranchShape.write (s : BranchShape) (n : Nat) (sub : Wr Unit) : Wr Nat := Wr.framed s.vers do
  Wr.drop s.data.named.marshal
  Wr.drop s.data.attfill.marshal
  Wr.i32 s.data.compress
  Wr.i32 s.data.basketSize
  Wr.i32 s.data.entryOffsetLen
  Wr.i32 s.data.writeBasket
  Wr.i64 s.data.entryNumber
  Wr.when (13 ≤ s.vers) (Wr.drop (TioFeatures.marshal s.data.iobits))
  Wr.i32 s.data.offset
  Wr.i32 s.data.maxBaskets
  Wr.i32 s.data.splitLevel
  Wr.i64 s.data.entries
  Wr.when (11 ≤ s.vers) (Wr.i64 s.data.firstEntry)
  Wr.i64 s.data.totBytes
  Wr.i64 s.data.zipBytes
  rootArray n sub
  rootArray s.leaves.length (Wr.each (fun l => Wr.drop (Wr.objectAny l.obj)) s.leaves)
  rootArray s.kept.length (Wr.each keptSlot s.kept)
  rootTable Wr.i32 s.data.basketBytes
  rootTable Wr.i64 s.data.basketEntry
  rootTable Wr.i64 s.data.basketSeek
  Wr.string s.data.fname

/-- `TBranch` or `TBranchElement`. -/
def BranchShape.marshal (s : BranchShape) (n : Nat) (sub : Wr Unit) : Wr Nat :=
  match s.elem with
  | none => s.write n sub
  | some e => Wr.framed e.vers do
    Wr.drop (s.write n sub)
    e.write

mutual
/-- The record of a branch. -/
def RootBranch.marshal : RootBranch → Wr Nat
  | .mk s sub => s.marshal sub.length (RootBranch.writeAll sub)
/-- Branches one after the other. -/
def RootBranch.writeAll : List RootBranch → Wr Unit
  | [] => pure ()
  | b :: bs => do
    Wr.drop (Wr.objectAny { cls := b.shape.cls, addr := b.shape.addr, marshal := b.marshal })
    RootBranch.writeAll bs
end

/-- The addresses of the leaves and baskets of a branch, and its own. -/
def BranchShape.addrs (s : BranchShape) : List Nat :=
  s.addr :: (s.leaves.map RootLeaf.addr ++ s.kept.filterMap (Option.map Prod.fst))

mutual
/-- All objects of a branch. -/
def RootBranch.addrs : RootBranch → List Nat
  | .mk s sub => s.addrs ++ RootBranch.addrsAll sub
def RootBranch.addrsAll : List RootBranch → List Nat
  | [] => []
  | b :: bs => b.addrs ++ RootBranch.addrsAll bs
end

mutual
/-- How many branches are inside each other. -/
def RootBranch.depth : RootBranch → Nat
  | .mk _ sub => RootBranch.depthAll sub + 1
def RootBranch.depthAll : List RootBranch → Nat
  | [] => 0
  | b :: bs => max b.depth (RootBranch.depthAll bs)
end

/-- Everything fits in its field; the tables have one slot more than baskets were written, at least. -/
structure BranchShape.Ok (s : BranchShape) : Prop where
  vers : 10 ≤ s.vers ∧ s.vers ≤ 13
  named : s.data.named.Fits
  attfill : s.data.attfill.Storable
  compress : InI 4 s.data.compress
  basketSize : InI 4 s.data.basketSize
  entryOffsetLen : InI 4 s.data.entryOffsetLen
  writeBasket : 0 ≤ s.data.writeBasket ∧ s.data.writeBasket < s.data.maxBaskets
  entryNumber : InI 8 s.data.entryNumber
  iobits : InU 1 s.data.iobits
  offset : InI 4 s.data.offset
  maxBaskets : s.data.maxBaskets < 2 ^ 31
  splitLevel : InI 4 s.data.splitLevel
  entries : InI 8 s.data.entries
  firstEntry : InI 8 s.data.firstEntry
  totBytes : InI 8 s.data.totBytes
  zipBytes : InI 8 s.data.zipBytes
  leaves : ∀ l ∈ s.leaves, l.Ok
  fewLeaves : s.leaves.length < 2 ^ 31
  kept : ∀ a k, some (a, k) ∈ s.kept → k.Ok
  fewKept : s.kept.length < 2 ^ 31
  bytesLen : s.data.basketBytes.length = s.data.maxBaskets
  entryLen : s.data.basketEntry.length = s.data.maxBaskets
  seekLen : s.data.basketSeek.length = s.data.maxBaskets
  bytes : ∀ i ∈ s.data.basketBytes, InI 4 i
  entry : ∀ i ∈ s.data.basketEntry, InI 8 i
  seek : ∀ i ∈ s.data.basketSeek, InI 8 i
  fname : TextOk s.data.fname
  elem : ∀ e, s.elem = some e → e.Ok

mutual
/-- The same for all branches inside. -/
def RootBranch.Ok : RootBranch → Prop
  | .mk s sub => s.Ok ∧ sub.length < 2 ^ 31 ∧ RootBranch.OkAll sub
def RootBranch.OkAll : List RootBranch → Prop
  | [] => True
  | b :: bs => b.Ok ∧ RootBranch.OkAll bs
end

/-- What is expected to be read of a branch: the same, with the tables cut to the baskets that were
written, with no more than its version has, and a split level of at least one if there are branches
inside. -/
def BranchShape.seen (s : BranchShape) (split : Bool) : BranchData :=
  { s.data with
      attfill := s.data.attfill.expected
      iobits := if 13 ≤ s.vers then s.data.iobits else 0
      firstEntry := if 11 ≤ s.vers then s.data.firstEntry else 0
      splitLevel := if split ∧ s.data.splitLevel = 0 then 1 else s.data.splitLevel
      leaves := s.leaves.map RootLeaf.leaf
      baskets := s.kept.filterMap (Option.map fun p => p.2.basket)
      basketBytes := s.data.basketBytes.take s.data.writeBasket.toNat
      basketEntry := s.data.basketEntry.take (s.data.writeBasket.toNat + 1)
      basketSeek := s.data.basketSeek.take s.data.writeBasket.toNat }

mutual
/-- The branch with those inside. -/
def RootBranch.seen : RootBranch → Branch
  | .mk s sub => .mk (s.seen (sub.length ≠ 0)) (s.elem.map RootElement.elem) (RootBranch.seenAll sub)
def RootBranch.seenAll : List RootBranch → List Branch
  | [] => []
  | b :: bs => b.seen :: RootBranch.seenAll bs
end

/-- A tree, with where its leaves were written. -/
structure RootTree where
  vers : Int := 20
  data : TreeData
  branches : List RootBranch
  leaves : List Nat

/-- `TTree`: names and attributes; numbers; the branches; the leaves, all written already; and `tail`. -/
def RootTree.writeWith (t : RootTree) (tail : Wr Unit) : Wr Nat := Wr.framed t.vers do
  Wr.drop t.data.named.marshal
  Wr.drop t.data.attline.marshal
  Wr.drop t.data.attfill.marshal
  Wr.drop t.data.attmarker.marshal
  Wr.i64 t.data.entries
  Wr.i64 t.data.totBytes
  Wr.i64 t.data.zipBytes
  Wr.i64 t.data.savedBytes
  Wr.when (18 ≤ t.vers) (Wr.i64 t.data.flushedBytes)
  Wr.when (16 ≤ t.vers) (Wr.f64 t.data.weight)
  Wr.i32 t.data.timerInterval
  Wr.i32 t.data.scanField
  Wr.i32 t.data.update
  Wr.when (17 ≤ t.vers) (Wr.i32 t.data.defaultEntryOffsetLen)
  Wr.when (19 ≤ t.vers) (Wr.i32 t.data.clusterRanges.length)
  Wr.i64 t.data.maxEntries
  Wr.i64 t.data.maxEntryLoop
  Wr.i64 t.data.maxVirtualSize
  Wr.i64 t.data.autoSave
  Wr.when (18 ≤ t.vers) (Wr.i64 t.data.autoFlush)
  Wr.i64 t.data.estimate
  Wr.when (19 ≤ t.vers) (rootTable Wr.i64 t.data.clusterRanges)
  Wr.when (19 ≤ t.vers) (rootTable Wr.i64 t.data.clusterSizes)
  Wr.when (20 ≤ t.vers) (Wr.drop (TioFeatures.marshal t.data.iobits))
  rootArray t.branches.length (RootBranch.writeAll t.branches)
  rootArray t.leaves.length (Wr.each (fun pos => rootPointer (some pos)) t.leaves)
  tail

/-- A tree without what comes last: aliases, an index (three times), friends, user information, a table of
references. -/
def RootTree.write (t : RootTree) : Wr Nat :=
  t.writeWith (Wr.each (fun _ => rootPointer none) (List.replicate 7 ()))

structure RootTree.Ok (t : RootTree) : Prop where
  vers : 6 ≤ t.vers ∧ t.vers ≤ 20
  data : t.data.Storable
  few : t.branches.length < 2 ^ 31
  branches : RootBranch.OkAll t.branches
  distinct : (RootBranch.addrsAll t.branches).Nodup
  fewLeaves : t.leaves.length < 2 ^ 31
  leaves : ∀ pos ∈ t.leaves, PointerOk (some pos)

/-- What is expected to be read: the numbers the version of the record has, no others. -/
def RootTree.seen (t : RootTree) : TreeData :=
  { t.data with
      rvers := t.vers, attline := t.data.attline.expected, attfill := t.data.attfill.expected
      attmarker := t.data.attmarker.expected
      flushedBytes := if 18 ≤ t.vers then t.data.flushedBytes else 0
      weight := if 16 ≤ t.vers then t.data.weight else 0x3FF0000000000000
      defaultEntryOffsetLen := if 17 ≤ t.vers then t.data.defaultEntryOffsetLen else 0
      autoFlush := if 18 ≤ t.vers then t.data.autoFlush else 0
      clusterRanges := if 19 ≤ t.vers then t.data.clusterRanges else []
      clusterSizes := if 19 ≤ t.vers then t.data.clusterSizes else []
      iobits := if 20 ≤ t.vers then t.data.iobits else 0 }

mutual
/-- All branches of a tree, one before those inside it. -/
def RootBranch.listing : RootBranch → List RootBranch
  | .mk s sub => .mk s sub :: RootBranch.listAll sub
def RootBranch.listAll : List RootBranch → List RootBranch
  | [] => []
  | b :: bs => b.listing ++ RootBranch.listAll bs
end

/-- Where a record is in a file, and how it is stored. -/
structure Place where
  key : Key
  block : Option Block := none

/-- The bytes are in the file, behind a key of the file for this name; they may be compressed, into one
block whose length is not theirs. -/
structure Place.Holds (p : Place) (dec : Decoders) (f : FileR) (name : Str) (bs : List Byte) : Prop where
  key : f.findKey name = .ok p.key
  seekKey : 0 ≤ p.key.seekKey
  keyLen : 0 ≤ p.key.keyLen
  widths : InI 8 p.key.seekKey ∧ InI 4 p.key.nBytes
  objLen : p.key.objLen = bs.length
  plain : p.block = none → p.key.nBytes = p.key.keyLen + bs.length ∧ bs <+: f.img.drop (p.key.seekKey + p.key.keyLen).toNat
  packed : ∀ z, p.block = some z → z.Decodes dec ∧ z.plain = bs ∧ z.bytes.length ≠ bs.length ∧
    p.key.nBytes = p.key.keyLen + z.bytes.length ∧ z.bytes <+: f.img.drop (p.key.seekKey + p.key.keyLen).toNat

/-- The record of a tree, behind a key of `keyLen` bytes. -/
def RootTree.Record (t : RootTree) (keyLen : Nat) (bs : List Byte) : Prop :=
  ∃ n w, t.write (WBuffer.holding keyLen []) = .ok (n, w) ∧ w.p = bs

/-- The tree is in the file. -/
structure RootTree.In (t : RootTree) (dec : Decoders) (f : FileR) (name : Str) : Prop where
  ok : t.Ok
  stored : ∃ (p : Place) (bs : List Byte), p.Holds dec f name bs ∧ t.Record p.key.keyLen.toNat bs ∧ p.key.cls = b! "TTree" ∧
    p.key.keyLen.toNat + bs.length < 2 ^ 30

/-- A branch with one leaf and with nothing inside, all of whose baskets are in the file. -/
structure RootBranch.Filled (b : RootBranch) (r : Reader) (l : Leaf) (bs : List RootBasket) : Prop where
  sub : b.sub = []
  leaf : b.shape.leaves.map RootLeaf.leaf = [l]
  kept : ∀ k ∈ b.shape.kept, k = none
  count : b.shape.data.writeBasket = bs.length
  seek : b.shape.data.basketSeek.take bs.length = bs.map fun x => x.key.seekKey
  bytes : b.shape.data.basketBytes.take bs.length = bs.map fun x => x.key.nBytes
  there : ∀ x ∈ bs, x.In r

end Verif
