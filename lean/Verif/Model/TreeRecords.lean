import Verif.Model.Streamers
import Verif.Model.Records
/-
Records of a tree: leaves, baskets, branches and the tree itself (rtree/leaf.rs, rtree/basket.rs,
rtree/branch/tbranch.rs, rtree/branch/tbranch_element.rs, rtree/tree/*.rs), and the object factory
(rtypes/factory.rs) that ties them together.
-/
namespace Verif

/-- rvers.rs `Leaf`. -/
def rversLeaf : Int := 2
/-- rvers.rs `LeafI`, `LeafB`, `LeafS`, `LeafL`, `LeafF`, `LeafD`, `LeafO`, `LEAF_C`, `LeafElement`. -/
def rversLeafX : Int := 1
/-- rvers.rs `BASKET`. -/
def rversBasket : Int := 3
/-- rvers.rs `BRANCH`. -/
def rversBranch : Int := 13
/-- rvers.rs `BRANCH_ELEMENT`. -/
def rversBranchElement : Int := 10
/-- rvers.rs `TREE`. -/
def rversTree : Int := 20

/-- `unwrap`/`expect`/`todo!()` on a missing value. -/
def Rd.orPanic {α} : Option α → Rd α
  | some a => pure a
  | none => Rd.panic

/-- Rust's `f64 as i64` on a bit pattern: truncation towards zero, saturating, NaN to 0. -/
def f64AsI64 (b : Nat) : Int :=
  let e := b / 2 ^ 52 % 2 ^ 11
  let m := b % 2 ^ 52
  let neg := b / 2 ^ 63 % 2 = 1
  let sat (n : Nat) : Int :=
    if neg then (if 2 ^ 63 ≤ n then -(2 ^ 63) else -n) else (if 2 ^ 63 ≤ n then 2 ^ 63 - 1 else n)
  if e = 2047 then (if m = 0 then sat (2 ^ 63) else 0)
  else if e < 1023 then 0
  else if e ≤ 1075 then sat ((2 ^ 52 + m) / 2 ^ (1075 - e))
  else sat ((2 ^ 52 + m) * 2 ^ (e - 1075))

/-! ### Leaves, rtree/leaf.rs -/

/-- leaf.rs 258-274 `TLeaf`; `shape` is always empty (`leaf_dim` 310-312), `count` is a flag. -/
structure TLeaf where
  named : TNamed := {}
  len : Int := 0
  etype : Int := 0
  offset : Int := 0
  hasRange : Bool := false
  unsigned : Bool := false
  count : Bool := false
  deriving DecidableEq, Repr

/-- The generated leaf types, leaf.rs 410-416 (`LeafC`) and 575-581. -/
inductive LeafKind where
  | I | B | S | L | F | D | O | C
  deriving DecidableEq, Repr

/-- leaf.rs 13-25 `Leaf`; `min` and `max` are the numbers (bit patterns for `F` and `D`, 0 or 1 for
`O`). -/
inductive Leaf where
  | base (t : TLeaf)
  | element (rvers : Int) (t : TLeaf) (id ltype : Int)
  | var (k : LeafKind) (rvers : Int) (t : TLeaf) (min max : Int)
  deriving DecidableEq, Repr

/-- leaf.rs 49-64 `class`. -/
def Leaf.cls : Leaf → Str
  | .base _ => b! "TLeaf"
  | .element .. => b! "TLeafElement"
  | .var .I .. => b! "TLeafI"
  | .var .B .. => b! "TLeafB"
  | .var .S .. => b! "TLeafS"
  | .var .L .. => b! "TLeafL"
  | .var .F .. => b! "TLeafF"
  | .var .D .. => b! "TLeafD"
  | .var .O .. => b! "TLeafO"
  | .var .C .. => b! "TLeafC"

/-- leaf.rs 204-218 the inner `TLeaf`. -/
def Leaf.tleaf : Leaf → TLeaf
  | .base t | .element _ t _ _ | .var _ _ t _ _ => t

/-- `w.write_object(&self.min)` for the field type of each kind (leaf.rs 575-581, 410-416). -/
def LeafKind.put : LeafKind → Int → Wr Unit
  | .I, v | .C, v => Wr.i32 v
  | .B, v => Wr.i8 v
  | .S, v => Wr.i16 v
  | .L, v => Wr.i64 v
  | .F, v => Wr.f32 v.toNat
  | .D, v => Wr.f64 v.toNat
  | .O, v => Wr.bool (v ≠ 0)

/-- `r.read_object(&mut self.min)`. -/
def LeafKind.get : LeafKind → Rd Int
  | .I | .C => Rd.i32
  | .B => Rd.i8
  | .S => Rd.i16
  | .L => Rd.i64
  | .F => do let v ← Rd.f32; pure v
  | .D => do let v ← Rd.f64; pure v
  | .O => do let v ← Rd.bool; pure (if v then 1 else 0)

/-- leaf.rs 371-400 `TLeaf::marshal`. -/
def TLeaf.marshal (t : TLeaf) : Wr Nat := do
  Wr.lenMinusOne
  Wr.framed rversLeaf do
    Wr.drop t.named.marshal
    Wr.i32 t.len
    Wr.i32 t.etype
    Wr.i32 t.offset
    Wr.bool t.hasRange
    Wr.bool t.unsigned
    if t.count then Wr.panic else Wr.drop Wr.objectNil

/-- leaf.rs 27-47 `Leaf::marshal`, with 441-454 (`LeafC`), 556-570 (generated) and 641-651
(`LeafElement`). -/
def Leaf.marshal : Leaf → Wr Nat
  | .base _ => Wr.panic
  | .element _ t id ltype => do
    Wr.lenMinusOne
    Wr.framed rversLeafX do
      Wr.drop t.marshal
      Wr.i32 id
      Wr.i32 ltype
  | .var k _ t min max => do
    Wr.lenMinusOne
    Wr.framed rversLeafX do
      Wr.drop t.marshal
      k.put min
      k.put max

/-- leaf.rs 314-369 `TLeaf::unmarshal`; `isElement` says whether the count object is a
`TLeafElement` (anything else is `todo!()`). -/
def TLeaf.unmarshal {ο} (any : Rd (Option ο)) (isElement : ο → Bool) : Rd TLeaf := do
  let h ← Rd.header
  Rd.ensureMax h.vers rversLeaf
  let named ← TNamed.unmarshal
  let len ← Rd.i32
  let etype ← Rd.i32
  let offset ← Rd.i32
  let hasRange ← Rd.bool
  let unsigned ← Rd.bool
  let t : TLeaf := { named := named, len := if len = 0 then 1 else len, etype := etype,
                     offset := offset, hasRange := hasRange, unsigned := unsigned }
  match ← any with
  | none => pure t
  | some o => if isElement o then pure { t with count := true } else Rd.panic

/-- leaf.rs 441-460 and 535-554 `unmarshal`. -/
def Leaf.unmarshalVar {ο} (k : LeafKind) (any : Rd (Option ο)) (isElement : ο → Bool) : Rd Leaf := do
  let h ← Rd.header
  Rd.ensureMax h.vers rversLeafX
  let t ← TLeaf.unmarshal any isElement
  let min ← k.get
  let max ← k.get
  pure (.var k h.vers t min max)

/-- leaf.rs 617-639 `LeafElement::unmarshal`. -/
def Leaf.unmarshalElement {ο} (any : Rd (Option ο)) (isElement : ο → Bool) : Rd Leaf := do
  let h ← Rd.header
  Rd.ensureMax h.vers rversLeafX
  let t ← TLeaf.unmarshal any isElement
  let id ← Rd.i32
  let ltype ← Rd.i32
  pure (.element h.vers t id ltype)

/-! ### Baskets, rtree/basket.rs -/

/-- basket.rs 11-20 `Basket`; `iobits` stays 0. -/
structure Basket where
  key : Key := {}
  nevBuf : Int := 0
  last : Int := 0
  nevSize : Int := 0
  bufSize : Int := 0
  offsets : List Int := []
  rvers : Int := rversBasket
  deriving DecidableEq, Repr

/-- basket.rs 162-291 `unmarshal` on a default basket.  A negative count or size aborts (capacity
overflow, slice). -/
def Basket.unmarshal : Rd Basket := do
  let key ← Key.unmarshal
  let vers ← Rd.i16
  Rd.ensureMax vers rversBasket
  let bufSize ← Rd.i32
  let nevSize ← Rd.i32
  if nevSize < 0 then Rd.panic
  else
    let nevBuf ← Rd.i32
    let last ← Rd.i32
    let flag ← Rd.u8
    let bufSize := if bufSize < last then last else bufSize
    let mustGen : Bool := 80 ≤ flag
    let flag := if 80 ≤ flag then flag - 80 else flag
    let offsets ←
      if mustGen = false ∧ flag ≠ 0 ∧ flag % 10 ≠ 2 then (do
        let offsets ←
          if 0 < nevBuf then (do
            let n ← Rd.i32
            if n < 0 then Rd.panic
            else
              let offsets ← Rd.times n.toNat Rd.i32
              if 20 < flag ∧ flag < 40 then Rd.panic else pure offsets)
          else pure []
        if 40 < flag then Rd.panic else pure offsets)
      else if mustGen ∧ flag ≤ 40 then Rd.panic
      else pure []
    let key ←
      if flag = 1 ∨ 10 < flag then (do
        let sz ← if vers ≤ 1 then Rd.i32 else pure last
        if sz < 0 then Rd.panic
        else
          let buf ← Rd.take sz.toNat
          pure { key with buffer := buf })
      else pure key
    pure { key := key, nevBuf := nevBuf, last := last, nevSize := nevSize, bufSize := bufSize,
           offsets := offsets }

/-! ### Branches -/

/-- tbranch.rs 22-69 `TBranch` without its sub-branches, reader and streamer context. -/
structure BranchData where
  named : TNamed := {}
  attfill : AttFill := AttFill.default
  compress : Int := 0
  basketSize : Int := 0
  entryOffsetLen : Int := 0
  writeBasket : Int := 0
  entryNumber : Int := 0
  iobits : Nat := 0
  offset : Int := 0
  maxBaskets : Int := 0
  splitLevel : Int := 0
  entries : Int := 0
  firstEntry : Int := 0
  totBytes : Int := 0
  zipBytes : Int := 0
  leaves : List Leaf := []
  baskets : List Basket := []
  basketBytes : List Int := []
  basketEntry : List Int := []
  basketSeek : List Int := []
  fname : Str := []
  deriving DecidableEq, Repr

/-- tbranch_element.rs 20-44: the fields `TBranchElement` adds. -/
structure BranchElem where
  className : Str := []
  parent : Str := []
  clones : Str := []
  chksum : Int := 0
  clsver : Int := 0
  id : Int := 0
  btype : Int := 0
  stype : Int := 0
  max : Int := 0
  deriving DecidableEq, Repr

/-- rtree/branch/mod.rs `Branch`: a `TBranch`, or a `TBranchElement` when `elem` is present, with
its sub-branches. -/
inductive Branch where
  | mk (data : BranchData) (elem : Option BranchElem) (branches : List Branch)

/-- The `TBranch` part. -/
def Branch.data : Branch → BranchData
  | .mk d _ _ => d
/-- The `TBranchElement` part. -/
def Branch.elem : Branch → Option BranchElem
  | .mk _ e _ => e
/-- tbranch.rs 101-103 `branches`. -/
def Branch.branches : Branch → List Branch
  | .mk _ _ b => b
/-- rtree/branch/mod.rs `name`. -/
def Branch.name (b : Branch) : Str := b.data.named.name
/-- rtree/branch/mod.rs `class`. -/
def Branch.cls (b : Branch) : Str :=
  match b.elem with
  | none => b! "TBranch"
  | some _ => b! "TBranchElement"

/-- tbranch.rs 663-666: number of slots of the tables on disk. -/
def bMaxBaskets (writeBasket : Int) : Int := if writeBasket + 1 < 10 then 10 else writeBasket + 1

/-- tbranch.rs 742-800: `&v[0..n]` and the zero padding up to `m`. -/
def Wr.paddedTable (put : Int → Wr Unit) (v : List Int) (n m : Int) : Wr Unit := do
  if n < 0 ∨ (v.length : Int) < n then Wr.panic
  else
    Wr.i8 1
    Wr.each put (v.take n.toNat)
    if m < n then Wr.panic
    else Wr.each put (List.replicate (m - n).toNat 0)

/-- tbranch.rs 657-806 `TBranch::marshal`; `leafAddr i` is the address of the `i`-th leaf. -/
def BranchData.marshal (d : BranchData) (sub : List Branch) (leafAddrs : List Nat) : Wr Nat := do
  Wr.lenMinusOne
  Wr.counted do
    Wr.drop <| Wr.framed rversBranch do
      Wr.drop d.named.marshal
      Wr.drop d.attfill.marshal
      Wr.i32 d.compress
      Wr.i32 d.basketSize
      Wr.i32 d.entryOffsetLen
      Wr.i32 d.writeBasket
      Wr.i64 d.entryNumber
      Wr.drop (TioFeatures.marshal d.iobits)
      Wr.i32 d.offset
      Wr.i32 (bMaxBaskets d.writeBasket)
      Wr.i32 d.splitLevel
      Wr.i64 d.entries
      Wr.i64 d.firstEntry
      Wr.i64 d.totBytes
      Wr.i64 d.zipBytes
      if sub ≠ [] then Wr.panic
      else
        Wr.drop (TObjArray.marshal TObject.default none 0 [])
        Wr.drop (TObjArray.marshal TObject.default none 0
          ((d.leaves.zip leafAddrs).map fun p =>
            { cls := p.1.cls, addr := p.2, marshal := p.1.marshal }))
        if d.baskets ≠ [] then Wr.panic
        else
          Wr.drop (TObjArray.marshal TObject.default none 0 [])
          Wr.paddedTable Wr.i32 d.basketBytes d.writeBasket (bMaxBaskets d.writeBasket)
          Wr.paddedTable Wr.i64 d.basketEntry (d.writeBasket + 1) (bMaxBaskets d.writeBasket)
          Wr.paddedTable Wr.i64 d.basketSeek d.writeBasket (bMaxBaskets d.writeBasket)
          Wr.string d.fname

/-- wbranch.rs 229-243 `WBranch::marshal`, with tbranch_element.rs 500-531 `marshal`. -/
def Branch.marshal (b : Branch) (leafAddrs : List Nat) : Wr Nat := do
  Wr.lenMinusOne
  match b.elem with
  | none => b.data.marshal b.branches leafAddrs
  | some e =>
    Wr.counted do
      Wr.drop <| Wr.framed rversBranchElement do
        Wr.drop (b.data.marshal b.branches leafAddrs)
        Wr.string e.className
        Wr.string e.parent
        Wr.string e.clones
        Wr.i32 e.chksum
        Wr.i16 e.clsver
        Wr.i32 e.id
        Wr.i32 e.btype
        Wr.i32 e.stype
        Wr.i32 e.max
        Wr.drop Wr.objectNil
        Wr.drop Wr.objectNil

/-! ### Trees -/

/-- tree/base.rs 11-62 `Tree`, without branches and streamer context; `weight` is a bit pattern
(`1.0` is `0x3FF0000000000000`). -/
structure TreeData where
  rvers : Int := 0
  named : TNamed := {}
  attline : AttLine := AttLine.default
  attfill : AttFill := AttFill.default
  attmarker : AttMarker := AttMarker.default
  entries : Int := 0
  totBytes : Int := 0
  zipBytes : Int := 0
  savedBytes : Int := 0
  flushedBytes : Int := 0
  weight : Nat := 0x3FF0000000000000
  timerInterval : Int := 0
  scanField : Int := 0
  update : Int := 0
  defaultEntryOffsetLen : Int := 0
  maxEntries : Int := 0
  maxEntryLoop : Int := 0
  maxVirtualSize : Int := 0
  autoSave : Int := 0
  autoFlush : Int := 0
  estimate : Int := 0
  clusterRanges : List Int := []
  clusterSizes : List Int := []
  iobits : Nat := 0
  deriving DecidableEq, Repr

/-- A branch with the addresses of itself and of its leaves in the writer's memory. -/
structure PlacedBranch where
  addr : Nat
  leafAddrs : List Nat
  branch : Branch

/-- What `WriterObjArray::push(b, addr_of!(*b))` stores for a branch (writer.rs 246-249). -/
def PlacedBranch.obj (b : PlacedBranch) : WObj :=
  { cls := b.branch.cls, addr := b.addr, marshal := b.branch.marshal b.leafAddrs }

/-- writer.rs 257-261: the leaves of a branch, by address. -/
def PlacedBranch.leafObjs (b : PlacedBranch) : List WObj :=
  (b.branch.data.leaves.zip b.leafAddrs).map fun p =>
    { cls := p.1.cls, addr := p.2, marshal := p.1.marshal }

/-- writer.rs 184-264, the first part of `WriterTree::marshal`; `tail` writes the rest of the record. -/
def TreeData.marshalWith (t : TreeData) (bs : List PlacedBranch) (tail : Wr Unit) : Wr Nat :=
  Wr.framed rversTree do
    Wr.drop t.named.marshal
    Wr.drop t.attline.marshal
    Wr.drop t.attfill.marshal
    Wr.drop t.attmarker.marshal
    Wr.i64 t.entries
    Wr.i64 t.totBytes
    Wr.i64 t.zipBytes
    Wr.i64 t.savedBytes
    Wr.i64 t.flushedBytes
    Wr.f64 t.weight
    Wr.i32 t.timerInterval
    Wr.i32 t.scanField
    Wr.i32 t.update
    Wr.i32 t.defaultEntryOffsetLen
    if 2 ^ 31 ≤ t.clusterRanges.length then Wr.fail .misc
    else
      Wr.i32 t.clusterRanges.length
      Wr.i64 t.maxEntries
      Wr.i64 t.maxEntryLoop
      Wr.i64 t.maxVirtualSize
      Wr.i64 t.autoSave
      Wr.i64 t.autoFlush
      Wr.i64 t.estimate
      Wr.i8 0
      Wr.each Wr.i64 t.clusterRanges
      Wr.i8 0
      Wr.each Wr.i64 t.clusterSizes
      Wr.drop (TioFeatures.marshal t.iobits)
      Wr.drop (TObjArray.marshal TObject.default none 0 (bs.map PlacedBranch.obj))
      Wr.drop (TObjArray.marshal TObject.default none 0 (bs.flatMap PlacedBranch.leafObjs))
      tail

/-- writer.rs 184-283 `WriterTree::marshal`: no aliases, index values, index, tree index, friends, user
information, branch reference. -/
def TreeData.marshal (t : TreeData) (bs : List PlacedBranch) : Wr Nat :=
  t.marshalWith bs (Wr.each (fun _ => Wr.drop Wr.objectNil) (List.replicate 7 ()))

/-! ### The objects the factory can build, rtypes/factory.rs 166-224 -/

/-- A value of one of the registered classes. -/
inductive Obj where
  | list (obj : TObject) (name : Str) (objs : List Obj)
  | objArray (obj : TObject) (name : Option Str) (low : Int) (objs : List Obj)
  | map (obj : TObject) (name : Option Str) (entries : List (Str × Obj))
  | sinfo (s : StreamerInfo)
  | elem (s : Streamer)
  | objString (obj : TObject) (s : Str)
  | attLine (a : AttLine)
  | attFill (a : AttFill)
  | attMarker (a : AttMarker)
  | leaf (l : Leaf)
  | branch (b : Branch)
  | basket (b : Basket)
  | tree (t : TreeData) (branches : List Branch) (userInfo : Option (TObject × Str × List Obj))

namespace Obj

/-- `Branch::from` (rtree/branch/mod.rs), else `todo!()`. -/
def toBranch : Obj → Option Branch
  | .branch b => some b
  | _ => none
/-- leaf.rs 239-255 `Leaf::from`, else `todo!()`. -/
def toLeaf : Obj → Option Leaf
  | .leaf l => some l
  | _ => none
/-- basket.rs 43-50 `Basket::from`, else `panic!`. -/
def toBasket : Obj → Option Basket
  | .basket b => some b
  | _ => none
/-- leaf.rs 337-349: the count object is a `TLeafElement`. -/
def isLeafElement : Obj → Bool
  | .leaf (.element ..) => true
  | _ => false
/-- The nine class names of rdict/mod.rs 36-70. -/
def streamerClasses : List Str :=
  [b! "TStreamerString", b! "TStreamerSTLstring", b! "TStreamerBasicType",
   b! "TStreamerBasicPointer", b! "TStreamerObjectAny", b! "TStreamerSTL", b! "TStreamerBase",
   b! "TStreamerObject", b! "TStreamerObjectPointer"]
/-- rdict/mod.rs 36-70 `Streamer::try_from`: an error for another class.  The class a list reports
is its name (list.rs), so a list called like a streamer class aborts in the downcast. -/
def toStreamer : Obj → Rd Streamer
  | .elem s => pure s
  | .list _ name _ => if name ∈ streamerClasses then Rd.panic else Rd.fail .misc
  | _ => Rd.fail .misc

end Obj

/-- The `for` loop of rdict/mod.rs 307-311. -/
def Rd.mapList {α β} (f : α → Rd β) : List α → Rd (List β)
  | [] => pure []
  | a :: as => do
    let b ← f a
    let bs ← Rd.mapList f as
    pure (b :: bs)

/-- rdict/mod.rs 285-320 `StreamerInfo::unmarshal`; ids are assigned by the process. -/
def StreamerInfo.unmarshal (any : Rd (Option Obj)) : Rd StreamerInfo := do
  let h ← Rd.header
  if rversStreamerInfo < h.vers then Rd.fail .versionTooHigh
  else
    let named ← TNamed.unmarshal
    let chksum ← Rd.u32
    let clsver ← Rd.i32
    match ← any with
    | some (.objArray _ _ _ objs) =>
      let elems ← Rd.mapList Obj.toStreamer objs
      pure { named := named, chksum := chksum, clsver := clsver, elems := elems }
    | _ => Rd.panic

/-- rcont/tmap.rs 56-95 `TMap::unmarshal`; a repeated key replaces the value. -/
def TMap.unmarshal (any : Rd (Option Obj)) : Rd Obj := do
  let h ← Rd.header
  let obj ← if 2 < h.vers then TObject.unmarshal else pure TObject.default
  let name ← if 1 < h.vers then (do let s ← Rd.string; pure (some s)) else pure none
  let nobjs ← Rd.i32
  let entries ← Rd.times nobjs.toNat do
    let k ← any
    let k ← Rd.orPanic k
    let v ← any
    let v ← Rd.orPanic v
    match k with
    | .objString _ s => pure (s, v)
    | _ => Rd.panic
  pure (.map obj name (entries.foldl (fun m e => m.filter (·.1 ≠ e.1) ++ [e]) []))

/-- An array of objects, converted (tbranch.rs 402-437). -/
def Rd.arrayOf {α} (any : Rd (Option Obj)) (conv : Obj → Option α) : Rd (List α) := do
  let a ← TObjArray.unmarshal any
  Rd.orPanic (a.2.2.2.mapM conv)

/-- `let _ = r.read_i8()?; let mut b = vec![0; n as usize]; r.read_array_*(..)`, keeping the first
`keep` slots: negative sizes abort (capacity overflow, slice). -/
def Rd.table (item : Rd Int) (n keep : Int) : Rd (List Int) := do
  let _ ← Rd.i8
  if n < 0 then Rd.panic
  else
    let b ← Rd.times n.toNat item
    if keep < 0 ∨ n < keep then Rd.panic else pure (b.take keep.toNat)

/-- tbranch.rs 641-643. -/
def BranchData.fixSplit (d : BranchData) (sub : List Branch) : BranchData :=
  if d.splitLevel = 0 ∧ sub ≠ [] then { d with splitLevel := 1 } else d

/-- tbranch.rs 349-479: versions 10 to 13. -/
def BranchData.unmarshalNew (any : Rd (Option Obj)) (vers : Int) : Rd (BranchData × List Branch) := do
  let named ← TNamed.unmarshal
  let attfill ← AttFill.unmarshal
  let compress ← Rd.i32
  let basketSize ← Rd.i32
  let entryOffsetLen ← Rd.i32
  let writeBasket ← Rd.i32
  let entryNumber ← Rd.i64
  let iobits ← if 13 ≤ vers then TioFeatures.unmarshal else pure 0
  let offset ← Rd.i32
  let maxBaskets ← Rd.i32
  let splitLevel ← Rd.i32
  let entries ← Rd.i64
  let firstEntry ← if 11 ≤ vers then Rd.i64 else pure 0
  let totBytes ← Rd.i64
  let zipBytes ← Rd.i64
  let sub ← Rd.arrayOf any Obj.toBranch
  let leaves ← Rd.arrayOf any Obj.toLeaf
  let baskets ← Rd.arrayOf any Obj.toBasket
  let basketBytes ← Rd.table Rd.i32 maxBaskets writeBasket
  let basketEntry ← Rd.table Rd.i64 maxBaskets (writeBasket + 1)
  let basketSeek ← Rd.table Rd.i64 maxBaskets writeBasket
  let fname ← Rd.string
  let d : BranchData :=
    { named := named, attfill := attfill, compress := compress, basketSize := basketSize,
      entryOffsetLen := entryOffsetLen, writeBasket := writeBasket, entryNumber := entryNumber,
      iobits := iobits, offset := offset, maxBaskets := maxBaskets, splitLevel := splitLevel,
      entries := entries, firstEntry := firstEntry, totBytes := totBytes, zipBytes := zipBytes,
      leaves := leaves, baskets := baskets, basketBytes := basketBytes,
      basketEntry := basketEntry, basketSeek := basketSeek, fname := fname }
  pure (d.fixSplit sub, sub)

/-- tbranch.rs 480-637: versions 6 to 9. -/
def BranchData.unmarshalOld (any : Rd (Option Obj)) (vers : Int) : Rd (BranchData × List Branch) := do
  let named ← TNamed.unmarshal
  let attfill ← if 7 < vers then AttFill.unmarshal else pure AttFill.default
  let compress ← Rd.i32
  let basketSize ← Rd.i32
  let entryOffsetLen ← Rd.i32
  let writeBasket ← Rd.i32
  let entryNumber ← Rd.i32
  let offset ← Rd.i32
  let maxBaskets ← Rd.i32
  let splitLevel ← if 6 < vers then Rd.i32 else pure 0
  let entries ← Rd.f64
  let totBytes ← Rd.f64
  let zipBytes ← Rd.f64
  let sub ← Rd.arrayOf any Obj.toBranch
  let leaves ← Rd.arrayOf any Obj.toLeaf
  let baskets ← Rd.arrayOf any Obj.toBasket
  let basketBytes ← Rd.table Rd.i32 maxBaskets maxBaskets
  let basketEntry ← Rd.table Rd.i32 maxBaskets maxBaskets
  let tag ← Rd.i8
  let basketSeek ←
    if maxBaskets < 0 then Rd.panic
    else if tag = 2 then (do
      let b ← Rd.times maxBaskets.toNat Rd.i64
      if writeBasket < 0 ∨ maxBaskets < writeBasket then Rd.panic
      else pure (b.take writeBasket.toNat))
    else Rd.times maxBaskets.toNat Rd.i32
  let fname ← Rd.string
  let d : BranchData :=
    { named := named, attfill := attfill, compress := compress, basketSize := basketSize,
      entryOffsetLen := entryOffsetLen, writeBasket := writeBasket, entryNumber := entryNumber,
      offset := offset, maxBaskets := maxBaskets, splitLevel := splitLevel,
      entries := f64AsI64 entries, totBytes := f64AsI64 totBytes, zipBytes := f64AsI64 zipBytes,
      leaves := leaves, baskets := baskets, basketBytes := basketBytes,
      basketEntry := basketEntry, basketSeek := basketSeek, fname := fname }
  pure (d.fixSplit sub, sub)

/-- tbranch.rs 340-655 `TBranch::unmarshal` on a default branch; below version 6 it is
`unimplemented!()`. -/
def BranchData.unmarshal (any : Rd (Option Obj)) : Rd (BranchData × List Branch) := do
  let h ← Rd.header
  Rd.ensureMax h.vers rversBranch
  if 10 ≤ h.vers then BranchData.unmarshalNew any h.vers
  else if 6 ≤ h.vers then BranchData.unmarshalOld any h.vers
  else Rd.panic

/-- `TBranch` as an object. -/
def Branch.unmarshalBase (any : Rd (Option Obj)) : Rd Branch := do
  let d ← BranchData.unmarshal any
  pure (.mk d.1 none d.2)

/-- tbranch_element.rs 446-498 `TBranchElement::unmarshal` on a default branch; the two
branch-count pointers must be null. -/
def Branch.unmarshalElement (any : Rd (Option Obj)) : Rd Branch := do
  let h ← Rd.header
  Rd.ensureMax h.vers rversBranchElement
  let d ← BranchData.unmarshal any
  let className ← Rd.string
  let parent ← if 1 < h.vers then Rd.string else pure []
  let clones ← if 1 < h.vers then Rd.string else pure []
  let chksum ← if 1 < h.vers then Rd.i32 else pure 0
  let clsver ← if 10 ≤ h.vers then Rd.i16 else (do let v ← Rd.u32; pure (toSigned 2 (v % 2 ^ 16)))
  let id ← Rd.i32
  let btype ← Rd.i32
  let stype ← Rd.i32
  if 1 < h.vers then
    let max ← Rd.i32
    let c1 ← any
    if c1.isSome then Rd.panic
    else
      let c2 ← any
      if c2.isSome then Rd.panic
      else
        let e : BranchElem :=
          { className := className, parent := parent, clones := clones, chksum := chksum,
            clsver := clsver, id := id, btype := btype, stype := stype, max := max }
        pure (.mk d.1 (some e) d.2)
  else
    let e : BranchElem :=
      { className := className, parent := parent, clones := clones, chksum := chksum,
        clsver := clsver, id := id, btype := btype, stype := stype }
    pure (.mk d.1 (some e) d.2)

/-- A pointer that must be null, else `todo!()` (reader.rs 260-320). -/
def Rd.mustBeNil (any : Rd (Option Obj)) : Rd Unit := do
  let v ← any
  if v.isSome then Rd.panic else pure ()

/-- reader.rs 133-325 `ReaderTree::unmarshal` on a default tree. -/
def TreeData.unmarshal (any : Rd (Option Obj)) :
    Rd (TreeData × List Branch × Option (TObject × Str × List Obj)) := do
  let h ← Rd.header
  Rd.ensureMax h.vers rversTree
  let named ← TNamed.unmarshal
  let attline ← AttLine.unmarshal
  let attfill ← AttFill.unmarshal
  let attmarker ← AttMarker.unmarshal
  Rd.ensureMin h.vers 4
  let big : Rd Int := if 5 < h.vers then Rd.i64 else (do let v ← Rd.f64; pure (f64AsI64 v))
  let entries ← big
  let totBytes ← big
  let zipBytes ← big
  let savedBytes ← big
  let flushedBytes ← if 18 ≤ h.vers then Rd.i64 else pure 0
  let weight ← if 16 ≤ h.vers then Rd.f64 else pure 0x3FF0000000000000
  let timerInterval ← Rd.i32
  let scanField ← Rd.i32
  let update ← Rd.i32
  let defaultEntryOffsetLen ← if 17 ≤ h.vers then Rd.i32 else pure 0
  let nclus ← if 19 ≤ h.vers then Rd.i32 else pure 0
  let maxEntries ← if 5 < h.vers then Rd.i64 else pure 0
  let num : Rd Int := if 5 < h.vers then Rd.i64 else Rd.i32
  let maxEntryLoop ← num
  let maxVirtualSize ← num
  let autoSave ← num
  let autoFlush ← if 18 ≤ h.vers then Rd.i64 else pure 0
  let estimate ← num
  let clusterRanges ← if 19 ≤ h.vers then Rd.table Rd.i64 nclus nclus else pure []
  let clusterSizes ← if 19 ≤ h.vers then Rd.table Rd.i64 nclus nclus else pure []
  let iobits ← if 20 ≤ h.vers then TioFeatures.unmarshal else pure 0
  let branches ← Rd.arrayOf any Obj.toBranch
  let _ ← TObjArray.unmarshal any
  if 5 < h.vers then Rd.mustBeNil any
  Rd.mustBeNil any
  Rd.mustBeNil any
  let userInfo ←
    if 5 < h.vers then (do
      Rd.mustBeNil any
      Rd.mustBeNil any
      let u ← any
      let u ← match u with
        | none => pure none
        | some (.list o n l) => pure (some (o, n, l))
        | some _ => Rd.panic
      Rd.mustBeNil any
      pure u)
    else pure none
  pure ({ rvers := h.vers, named := named, attline := attline, attfill := attfill,
          attmarker := attmarker, entries := entries, totBytes := totBytes, zipBytes := zipBytes,
          savedBytes := savedBytes, flushedBytes := flushedBytes, weight := weight,
          timerInterval := timerInterval, scanField := scanField, update := update,
          defaultEntryOffsetLen := defaultEntryOffsetLen, maxEntries := maxEntries,
          maxEntryLoop := maxEntryLoop, maxVirtualSize := maxVirtualSize, autoSave := autoSave,
          autoFlush := autoFlush, estimate := estimate, clusterRanges := clusterRanges,
          clusterSizes := clusterSizes, iobits := iobits }, branches, userInfo)

/-! ### The factory -/

/-- What `unmarshal` does for each registered class (rtypes/factory.rs 166-224), `any` being
`read_object_any_into`. -/
def unmarshalOf (any : Rd (Option Obj)) (cls : Str) : Option (Rd Obj) :=
  let leafVar (k : LeafKind) : Option (Rd Obj) :=
    some (do let l ← Leaf.unmarshalVar k any Obj.isLeafElement; pure (.leaf l))
  let plain (mk : StreamerElement → Streamer) : Option (Rd Obj) :=
    some (do let s ← Streamer.unmarshalPlain mk; pure (.elem s))
  if cls = b! "TList" then
    some (do let l ← TList.unmarshal any; pure (.list l.1 l.2.1 l.2.2))
  else if cls = b! "TMap" then some (TMap.unmarshal any)
  else if cls = b! "TObjArray" then
    some (do let a ← TObjArray.unmarshal any; pure (.objArray a.1 a.2.1 a.2.2.1 a.2.2.2))
  else if cls = b! "TStreamerInfo" then
    some (do let s ← StreamerInfo.unmarshal any; pure (.sinfo s))
  else if cls = b! "TStreamerBase" then some (do let s ← Streamer.unmarshalBase; pure (.elem s))
  else if cls = b! "TStreamerString" then plain .string
  else if cls = b! "TStreamerBasicType" then
    some (do let s ← Streamer.unmarshalBasicType; pure (.elem s))
  else if cls = b! "TStreamerObject" then plain .object
  else if cls = b! "TStreamerObjectPointer" then plain .objectPointer
  else if cls = b! "TStreamerObjectAny" then plain .objectAny
  else if cls = b! "TStreamerBasicPointer" then
    some (do let s ← Streamer.unmarshalBasicPointer; pure (.elem s))
  else if cls = b! "TStreamerSTL" then
    some (do let s ← Streamer.unmarshalStl; pure (.elem (.stl s.1 s.2.1 s.2.2)))
  else if cls = b! "TStreamerSTLstring" then
    some (do let s ← Streamer.unmarshalStlString; pure (.elem s))
  else if cls = b! "TObjString" then
    some (do let s ← TObjString.unmarshal; pure (.objString s.1 s.2))
  else if cls = b! "TAttLine" then some (do let a ← AttLine.unmarshal; pure (.attLine a))
  else if cls = b! "TAttFill" then some (do let a ← AttFill.unmarshal; pure (.attFill a))
  else if cls = b! "TAttMarker" then some (do let a ← AttMarker.unmarshal; pure (.attMarker a))
  else if cls = b! "TTree" then
    some (do let t ← TreeData.unmarshal any; pure (.tree t.1 t.2.1 t.2.2))
  else if cls = b! "TBranch" then some (do let b ← Branch.unmarshalBase any; pure (.branch b))
  else if cls = b! "TBranchElement" then
    some (do let b ← Branch.unmarshalElement any; pure (.branch b))
  else if cls = b! "TLeaf" then
    some (do let t ← TLeaf.unmarshal any Obj.isLeafElement; pure (.leaf (.base t)))
  else if cls = b! "TLeafElement" then
    some (do let l ← Leaf.unmarshalElement any Obj.isLeafElement; pure (.leaf l))
  else if cls = b! "TLeafI" then leafVar .I
  else if cls = b! "TLeafF" then leafVar .F
  else if cls = b! "TLeafD" then leafVar .D
  else if cls = b! "TLeafB" then leafVar .B
  else if cls = b! "TLeafL" then leafVar .L
  else if cls = b! "TLeafO" then leafVar .O
  else if cls = b! "TLeafS" then leafVar .S
  else if cls = b! "TLeafC" then leafVar .C
  else if cls = b! "TBasket" then some (do let b ← Basket.unmarshal; pure (.basket b))
  else none

/-- `read_object_any_into` when at most `fuel` objects are nested; a deeper nesting is a stack
overflow in Rust, an abort. -/
def readAny : Nat → Rd (Option Obj)
  | 0 => Rd.panic
  | fuel + 1 => Rd.objectAny (unmarshalOf (readAny fuel))

/-- `FACTORY.get(cls)()` followed by `unmarshal`. -/
def factory (fuel : Nat) (cls : Str) : Option (Rd Obj) := unmarshalOf (readAny fuel) cls

end Verif
