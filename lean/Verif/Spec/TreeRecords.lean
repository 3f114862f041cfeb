import Verif.Spec.Streamers
import Verif.Model.TreeRecords
/-
Which leaf, branch and tree records the format can hold.
-/
namespace Verif

/-- A colour as the reader represents it: by name when its code has one. -/
def Color.canonical (c : Color) : Color := Color.fromI16 c.toI16

/-- A fill attribute the format can hold: the numbers have 16 bits. -/
def AttFill.Storable (a : AttFill) : Prop := InI 2 a.color.toI16 ∧ InI 2 a.style

instance AttFill.decStorable (a : AttFill) : Decidable a.Storable :=
  inferInstanceAs (Decidable (_ ∧ _))

/-- The same for a line attribute. -/
def AttLine.Storable (a : AttLine) : Prop := InI 2 a.color.toI16 ∧ InI 2 a.style ∧ InI 2 a.width

instance AttLine.decStorable (a : AttLine) : Decidable a.Storable :=
  inferInstanceAs (Decidable (_ ∧ _ ∧ _))

/-- The same for a marker attribute (the size is a bit pattern). -/
def AttMarker.Storable (a : AttMarker) : Prop :=
  InI 2 a.color.toI16 ∧ InI 2 a.style ∧ InU 4 a.width

instance AttMarker.decStorable (a : AttMarker) : Decidable a.Storable :=
  inferInstanceAs (Decidable (_ ∧ _ ∧ _))

/-- The attribute with its colour named when it has a name. -/
def AttFill.expected (a : AttFill) : AttFill := { a with color := a.color.canonical }
/-- The same for a line attribute. -/
def AttLine.expected (a : AttLine) : AttLine := { a with color := a.color.canonical }
/-- The same for a marker attribute. -/
def AttMarker.expected (a : AttMarker) : AttMarker := { a with color := a.color.canonical }

/-- A leaf the format can hold; a length of 0 would be read as 1, a leaf that counts another one
cannot be written. -/
structure TLeaf.Storable (t : TLeaf) : Prop where
  named : t.named.Fits
  len : InI 4 t.len
  lenPos : t.len ≠ 0
  etype : InI 4 t.etype
  offset : InI 4 t.offset
  count : t.count = false

/-- A number that fits the field of the kind of leaf. -/
def LeafKind.Fits : LeafKind → Int → Prop
  | .I, v | .C, v => InI 4 v
  | .B, v => InI 1 v
  | .S, v => InI 2 v
  | .L, v => InI 8 v
  | .F, v => 0 ≤ v ∧ InU 4 v.toNat
  | .D, v => 0 ≤ v ∧ InU 8 v.toNat
  | .O, v => v = 0 ∨ v = 1

/-- Leaves the writer can write, of the current version. -/
def Leaf.Storable : Leaf → Prop
  | .base _ => False
  | .element rvers t id ltype => rvers = 1 ∧ t.Storable ∧ InI 4 id ∧ InI 4 ltype
  | .var k rvers t min max => rvers = 1 ∧ t.Storable ∧ k.Fits min ∧ k.Fits max

/-- A branch the format can hold: `nb` baskets were written, their sizes and positions are in the
tables, and the table of first entries has one more slot. -/
structure BranchData.Storable (d : BranchData) (nb : Nat) : Prop where
  named : d.named.Fits
  attfill : d.attfill.Storable
  compress : InI 4 d.compress
  basketSize : InI 4 d.basketSize
  entryOffsetLen : InI 4 d.entryOffsetLen
  writeBasket : d.writeBasket = nb
  fewBaskets : nb < 2 ^ 31 - 1
  entryNumber : InI 8 d.entryNumber
  iobits : InU 1 d.iobits
  offset : InI 4 d.offset
  splitLevel : InI 4 d.splitLevel
  entries : InI 8 d.entries
  firstEntry : InI 8 d.firstEntry
  totBytes : InI 8 d.totBytes
  zipBytes : InI 8 d.zipBytes
  leaves : ∀ l ∈ d.leaves, l.Storable
  fewLeaves : d.leaves.length < 2 ^ 31
  noBaskets : d.baskets = []
  bytesLen : nb ≤ d.basketBytes.length
  entryLen : nb + 1 ≤ d.basketEntry.length
  seekLen : nb ≤ d.basketSeek.length
  bytes : ∀ i ∈ d.basketBytes, InI 4 i
  entry : ∀ i ∈ d.basketEntry, InI 8 i
  seek : ∀ i ∈ d.basketSeek, InI 8 i
  fname : TextOk d.fname

/-- What is expected back: the same branch, the tables cut to the baskets written, and the number of
slots on disk (at least ten). -/
def BranchData.expected (d : BranchData) (nb : Nat) : BranchData :=
  { d with attfill := d.attfill.expected,
           maxBaskets := if nb + 1 < 10 then 10 else nb + 1,
           basketBytes := d.basketBytes.take nb,
           basketEntry := d.basketEntry.take (nb + 1),
           basketSeek := d.basketSeek.take nb }

/-- The fields of a `TBranchElement` fit. -/
structure BranchElem.Storable (e : BranchElem) : Prop where
  className : TextOk e.className
  parent : TextOk e.parent
  clones : TextOk e.clones
  chksum : InI 4 e.chksum
  clsver : InI 2 e.clsver
  id : InI 4 e.id
  btype : InI 4 e.btype
  stype : InI 4 e.stype
  max : InI 4 e.max

/-- A branch without sub-branches the format can hold. -/
def Branch.Storable (b : Branch) (nb : Nat) : Prop :=
  b.branches = [] ∧ b.data.Storable nb ∧ ∀ e, b.elem = some e → e.Storable

/-- What is expected back for a branch. -/
def Branch.expected (b : Branch) (nb : Nat) : Branch := .mk (b.data.expected nb) b.elem []

/-- A tree the format can hold. -/
structure TreeData.Storable (t : TreeData) : Prop where
  named : t.named.Fits
  attline : t.attline.Storable
  attfill : t.attfill.Storable
  attmarker : t.attmarker.Storable
  entries : InI 8 t.entries
  totBytes : InI 8 t.totBytes
  zipBytes : InI 8 t.zipBytes
  savedBytes : InI 8 t.savedBytes
  flushedBytes : InI 8 t.flushedBytes
  weight : InU 8 t.weight
  timerInterval : InI 4 t.timerInterval
  scanField : InI 4 t.scanField
  update : InI 4 t.update
  defaultEntryOffsetLen : InI 4 t.defaultEntryOffsetLen
  maxEntries : InI 8 t.maxEntries
  maxEntryLoop : InI 8 t.maxEntryLoop
  maxVirtualSize : InI 8 t.maxVirtualSize
  autoSave : InI 8 t.autoSave
  autoFlush : InI 8 t.autoFlush
  estimate : InI 8 t.estimate
  clusterLen : t.clusterSizes.length = t.clusterRanges.length
  fewClusters : t.clusterRanges.length < 2 ^ 31
  clusterRanges : ∀ i ∈ t.clusterRanges, InI 8 i
  clusterSizes : ∀ i ∈ t.clusterSizes, InI 8 i
  iobits : InU 1 t.iobits

/-- What is expected back: the same tree, with the version of its record. -/
def TreeData.expected (t : TreeData) : TreeData :=
  { t with rvers := 20, attline := t.attline.expected, attfill := t.attfill.expected,
           attmarker := t.attmarker.expected }

/-- The addresses of a branch and its leaves. -/
def PlacedBranch.addrs (b : PlacedBranch) : List Nat := b.addr :: b.leafAddrs

/-- Branches in memory: one address per leaf, all addresses different, everything storable. -/
structure PlacedOk (bs : List PlacedBranch) (nb : PlacedBranch → Nat) : Prop where
  storable : ∀ b ∈ bs, b.branch.Storable (nb b)
  addrPerLeaf : ∀ b ∈ bs, b.leafAddrs.length = b.branch.data.leaves.length
  distinct : (bs.flatMap PlacedBranch.addrs).Nodup
  few : bs.length < 2 ^ 31
  fewLeaves : (bs.flatMap PlacedBranch.leafAddrs).length < 2 ^ 31

end Verif
