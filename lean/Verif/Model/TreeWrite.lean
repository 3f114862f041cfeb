import Verif.Model.Session
import Verif.Model.Values
/-
Writing a tree: rtree/tree/writer.rs (new, new_branch, write, flush, close), rtree/branch/wbranch.rs
(new, write, create_new_basket, flush), rtree/wbasket.rs (update), rtree/basket.rs (new_from_branch),
rtree/leaf.rs (new, write_to_buffer), rdict/streamers/mod.rs (make_streamer_for_marshaler_type).
-/
namespace Verif

/-! ### The types of entries, rbytes/mod.rs -/

/-- A number in decimal, as `format!` prints it. -/
def decimal (n : Nat) : Str := (Nat.toDigits 10 n).map fun c => UInt8.ofNat c.toNat

/-- `format!("{}", i)` of a signed number; `-` is 45. -/
def decimalI (i : Int) : Str := if i < 0 then 45 :: decimal i.natAbs else decimal i.natAbs

/-- `std::mem::size_of::<T>()` on a 64-bit target. -/
def Ty.sizeOf : Ty → Nat
  | .bool | .i8 | .u8 => 1
  | .i16 | .u16 => 2
  | .i32 | .u32 | .f32 => 4
  | .i64 | .u64 | .f64 => 8
  | .string | .vec _ => 24
  | .arr n t => n * t.sizeOf

/-- `root_code`: rbytes/mod.rs 181-229 (primitives), 290-292 (String), 345-347 (Vec), 477-479
(arrays). -/
def Ty.rootCode : Ty → Str
  | .bool | .i8 => b! "B"
  | .u8 => b! "b"
  | .i16 => b! "S"
  | .u16 => b! "s"
  | .i32 => b! "I"
  | .u32 => b! "i"
  | .i64 => b! "L"
  | .u64 => b! "l"
  | .f32 => b! "F"
  | .f64 => b! "D"
  | .string => b! "string"
  | .vec t => b! "vector<" ++ t.rootCode ++ b! ">"
  | .arr n t => b! "[" ++ decimal n ++ b! "]/" ++ t.rootCode

/-- `Marshaler::class_name`: rbytes/mod.rs 158-179 (primitives), 349-354 (Vec); `unimplemented!` for
the others. -/
def Ty.wrClassName : Ty → Res Str
  | .i8 => .ok (b! "int8_t")
  | .u8 => .ok (b! "uint8_t")
  | .i16 => .ok (b! "int16_t")
  | .u16 => .ok (b! "uint16_t")
  | .i32 => .ok (b! "int32_t")
  | .u32 => .ok (b! "uint32_t")
  | .i64 => .ok (b! "int64_t")
  | .u64 => .ok (b! "uint64_t")
  | .f32 => .ok (b! "float")
  | .f64 => .ok (b! "double")
  | .bool | .string | .arr .. => .error .panic
  | .vec t => do
    let c ← t.wrClassName
    pure (b! "vector<" ++ c ++ b! ">")

/-- leaf.rs 86-102 `make_leaf`, by `type_name` (which is never `String`, leaf.rs 123 passes it
explicitly): the kind of leaf and whether it is unsigned. -/
def Ty.leafKind : Ty → Option (LeafKind × Bool)
  | .i32 => some (.I, false)
  | .u32 => some (.I, true)
  | .i16 => some (.S, false)
  | .u16 => some (.S, true)
  | .i8 => some (.B, false)
  | .u8 => some (.B, true)
  | .i64 => some (.L, false)
  | .u64 => some (.L, true)
  | .f32 => some (.F, false)
  | .f64 => some (.D, false)
  | .bool => some (.O, false)
  | .string | .vec _ | .arr .. => none

/-- leaf.rs 75-132 `Leaf::new`; `unimplemented!` for elements of arrays that are not primitive, a
division by zero for empty arrays, `kind()` of a vector asks for the class name of its elements. -/
def Leaf.new (t : Ty) (name : Str) : Res Leaf :=
  let tleaf : TLeaf := { named := { name := name, title := name }, etype := asI 4 t.sizeOf, len := 1 }
  match t with
  | .string => .ok (.var .C rversLeafX tleaf 0 0)
  | .vec e => do
    let _ ← e.wrClassName
    pure (.element rversLeafX { tleaf with etype := 0 } (-1) (-1))
  | .arr n e =>
    let nelems := asI 4 n
    if nelems = 0 then .error .panic
    else
      match e.leafKind with
      | none => .error .panic
      | some (k, u) =>
        .ok (.var k rversLeafX { tleaf with
          len := nelems
          etype := (asI 4 t.sizeOf).tdiv nelems
          named := { name := name, title := name ++ b! "[" ++ decimalI nelems ++ b! "]" }
          unsigned := u } 0 0)
  | t =>
    match t.leafKind with
    | none => .error .panic
    | some (k, u) => .ok (.var k rversLeafX { tleaf with unsigned := u } 0 0)

/-- rmeta/consts.rs 139-161 `from_string`, on the names `class_name` gives; `unimplemented!` for
vectors. -/
def Ty.stlContent : Ty → Option EnumNamed
  | .i32 => some .int
  | .u32 => some .uInt
  | .i8 => some .char
  | .u8 => some .uChar
  | .i16 => some .short
  | .u16 => some .uShort
  | .i64 => some .long64
  | .u64 => some .uLong64
  | .f32 => some .float
  | .f64 => some .double
  | .bool | .string | .vec _ | .arr .. => none

/-- rdict/streamers/mod.rs 14-54 `make_streamer_for_marshaler_type` for `Vec<T>`. -/
def makeVectorStreamer (t : Ty) : Res StreamerInfo := do
  let c ← (Ty.vec t).wrClassName
  match t.stlContent with
  | none => .error .panic
  | some e =>
    let se : StreamerElement :=
      { named := { name := c }, etype := .named .streamer, esize := 24, ename := c }
    .ok { named := { name := c }, elems := [.stl se .vector (.named e)] }

/-! ### A branch being written -/

/-- tbranch.rs 17 `DEFAULT_BASKET_SIZE`. -/
def defaultBasketSize : Int := 32 * 1024
/-- tbranch.rs 19 `DEFAULT_MAX_BASKETS`. -/
def defaultMaxBaskets : Int := 10

/-- wbranch.rs 14-21 `WBranch`.  The iterator is the list of what `next` will answer, an entry being
represented by its `marshal`; at the end of the list it answers `None` for ever.  (An iterator may
answer `None` and then go on; the derive macro makes such ones.)  Infinite iterators are not modelled:
`write` never returns for them. -/
structure WBranch where
  branch : Branch
  items : List (Option (Wr Nat))
  basket : Option WBasket := none

/-- The branch with other data. -/
def Branch.withData (b : Branch) (d : BranchData) : Branch := .mk d b.elem b.branches

/-- wbranch.rs 48-108 `WBranch::new`, for entries of type `t`, of which it knows only how they are
marshalled; returns also the class records given to
`tree.add_streamer`. -/
def WBranch.new (t : Ty) (name : Str) (items : List (Option (Wr Nat))) (iobits : Nat) :
    Res (WBranch × List StreamerInfo) := do
  let leaf ← Leaf.new t name
  let d : BranchData :=
    { named := { name := name, title := name ++ b! "/" ++ t.rootCode }
      iobits := iobits, basketSize := defaultBasketSize, maxBaskets := defaultMaxBaskets
      basketEntry := [0], leaves := [leaf] }
  match t with
  | .vec e =>
    let c ← (Ty.vec e).wrClassName
    let si ← makeVectorStreamer e
    pure ({ branch := .mk { d with entryOffsetLen := 1000 }
              (some { className := c, stype := -1, id := -1 }) []
            items := items }, [si])
  | .string => pure ({ branch := .mk { d with entryOffsetLen := 1000 } none [], items := items }, [])
  | _ => pure ({ branch := .mk d none [], items := items }, [])

/-- basket.rs 61-102 `new_from_branch` with wbasket.rs 21-26 `new`. -/
def Basket.newFromBranch (b : Branch) (cycle bufSize offsetLen : Int) (treeName : Str) (f : FileW) :
    WBasket :=
  { basket :=
      { key := Key.newForBasket b.name treeName (b! "TBasket") cycle f
        nevSize := offsetLen, bufSize := bufSize, offsets := List.replicate offsetLen.toNat 0 } }

/-- wbranch.rs 164-184 `create_new_basket`: `write_basket as i16 + 1` aborts when it leaves `i16`
(debug build). -/
def WBranch.createNewBasket (b : WBranch) (treeName : Str) (f : FileW) : Res (WBranch × WBasket) :=
  let d := b.branch.data
  let cycle := asI 2 d.writeBasket + 1
  if ¬ InI 2 cycle then .error .panic
  else
    let bk := Basket.newFromBranch b.branch cycle d.basketSize d.entryOffsetLen treeName f
    let d := if d.maxBaskets < d.writeBasket then { d with maxBaskets := d.writeBasket } else d
    .ok ({ b with branch := b.branch.withData d }, bk)

/-- wbasket.rs 37-52: room for one more offset.  `2 * nev_size` and the length as `i32` are not checked
for overflow (a basket has less than 32768 entries). -/
def Basket.grow (b : Basket) : Basket :=
  if b.nevSize ≤ b.nevBuf + 1 then
    let n := if 10 < 2 * b.nevSize then 2 * b.nevSize else 10
    { b with nevSize := n
             offsets := b.offsets ++ List.replicate ((b.offsets.length : Int) - n).natAbs 0 }
  else b

/-- wbasket.rs 28-61 `update`; a position outside the table aborts. -/
def WBasket.update (b : WBasket) (offset : Int) : Res WBasket :=
  let offset := offset + b.basket.key.keyLen
  if b.basket.offsets = [] then .ok { b with basket := { b.basket with nevBuf := b.basket.nevBuf + 1 } }
  else
    let bk := b.basket.grow
    if bk.nevBuf < 0 ∨ (bk.offsets.length : Int) ≤ bk.nevBuf then .error .panic
    else .ok { b with basket := { bk with offsets := bk.offsets.set bk.nevBuf.toNat (asI 4 offset)
                                          nevBuf := bk.nevBuf + 1 } }

/-- leaf.rs 183-202 `write_to_buffer`, with 428-443 (`LeafC`) and 606-617 (`LeafElement`): the leaf
as it is left. -/
def Leaf.writeToBuffer (l : Leaf) (item : Wr Nat) : Wr Leaf :=
  match l with
  | .base _ => Wr.panic
  | .element .. => do
    let _ ← Wr.framed rversStreamerInfo (Wr.drop item)
    pure l
  | .var .C v t min max => do
    let sz ← item
    let max := if max ≤ sz then asI 4 sz else max
    let t := if t.len ≤ sz then { t with len := asI 4 sz } else t
    pure (.var .C v t min max)
  | .var .. => do
    let _ ← item
    pure l

/-- wbranch.rs 186-227 `flush`. -/
def WBranch.flush (b : WBranch) : Fs WBranch := do
  let bk ← Fs.orPanic b.basket
  let (bk, tot, zip) ← bk.writeToFile
  let d := b.branch.data
  let d := { d with
    totBytes := d.totBytes + tot
    zipBytes := d.zipBytes + zip
    basketBytes := d.basketBytes ++ [bk.basket.key.nBytes]
    basketEntry := d.basketEntry ++ [d.entries]
    basketSeek := d.basketSeek ++ [bk.basket.key.seekKey]
    writeBasket := d.writeBasket + 1 }
  pure { b with branch := b.branch.withData d, basket := some bk }

/-- wbranch.rs 118-124: the basket in use. -/
def WBranch.currentBasket (b : WBranch) (treeName : Str) : Fs (WBranch × WBasket) :=
  match b.basket with
  | some bk => pure (b, bk)
  | none => do
    let f ← Fs.get
    let (b, bk) ← Fs.lift (b.createNewBasket treeName f)
    pure ({ b with basket := some bk }, bk)

/-- wbranch.rs 129-145: one entry goes into the basket; the branch and the number of bytes. -/
def WBranch.fill (b : WBranch) (bk : WBasket) (item : Wr Nat) (rest : List (Option (Wr Nat))) :
    Res (WBranch × WBasket × Int) :=
  match b.branch.data.leaves with
  | [leaf] => do
    let szOld := bk.wbuf.p.length
    let bk ← bk.update szOld
    let (leaf, wbuf) ← leaf.writeToBuffer item bk.wbuf
    let n := asI 4 ((wbuf.p.length : Int) - szOld)
    let nevSize := if bk.basket.nevSize < n then n else bk.basket.nevSize
    let bk : WBasket := { basket := { bk.basket with nevSize := nevSize }, wbuf := wbuf }
    let d := b.branch.data
    let d := { d with entries := d.entries + 1, entryNumber := d.entryNumber + 1, leaves := [leaf] }
    pure ({ branch := b.branch.withData d, items := rest, basket := some bk }, bk, n)
  | _ => .error .panic

/-- wbranch.rs 147-155: when the basket is full it is stored and a new one is made; a negative `n` as
`usize` makes the sum leave the range. -/
def WBranch.spill (b : WBranch) (bk : WBasket) (n : Int) (treeName : Str) : Fs WBranch :=
  if n < 0 then Fs.panic
  else if b.branch.data.basketSize ≤ (bk.wbuf.p.length : Int) + n then do
    let b ← b.flush
    let f ← Fs.get
    let (b, bk) ← Fs.lift (b.createNewBasket treeName f)
    pure { b with basket := some bk }
  else pure b

/-- wbranch.rs 110-162 `write`: one entry, if there is one; the number of its bytes. -/
def WBranch.write (b : WBranch) (treeName : Str) : Fs (WBranch × Option Int) := do
  let (b, bk) ← b.currentBasket treeName
  match b.items with
  | [] => pure (b, none)
  | none :: rest => pure ({ b with items := rest }, none)
  | some item :: rest => do
    let (b, bk, n) ← Fs.lift (b.fill bk item rest)
    let b ← b.spill bk n treeName
    pure (b, some n)

/-! ### The tree -/

/-- writer.rs 36-43 `StateCallBack`. -/
inductive Event where
  | before
  | branch (name : Str)
  | after
  deriving DecidableEq, Repr

/-- writer.rs 29-32 `WriterTree`: `callbacks` functions are registered; what they are called with is
kept in a log (which function, with what). -/
structure WTree where
  data : TreeData
  branches : List WBranch := []
  sinfos : Option (List StreamerInfo) := some []
  callbacks : Nat := 0
  log : List (Nat × Event) := []

/-- writer.rs 45-71 `new`; the weight is `1.0`. -/
def WTree.new (name : Str) : WTree :=
  { data :=
      { named := { name := name }, scanField := 25, defaultEntryOffsetLen := 1000
        maxEntries := 1000000000000, maxEntryLoop := 1000000000000
        autoSave := -300000000, autoFlush := -30000000, estimate := 1000000 } }

/-- writer.rs 79-84 `add_callback`. -/
def WTree.addCallback (t : WTree) : WTree := { t with callbacks := t.callbacks + 1 }

/-- writer.rs 105-106, with 86-89 `add_streamer`: the branch for what the iterator gives. -/
def WTree.pushBranch (t : WTree) (ty : Ty) (name : Str) (items : List (Option (Wr Nat))) : Res WTree := do
  let (b, sis) ← WBranch.new ty name items t.data.iobits
  if sis = [] then pure { t with branches := t.branches ++ [b] }
  else
    match t.sinfos with
    | none => .error .panic
    | some l => pure { t with branches := t.branches ++ [b], sinfos := some (l ++ sis) }

/-- writer.rs 99-107 `new_branch`. -/
def WTree.newBranch (t : WTree) (ty : Ty) (name : Str) (items : List (Option ty.Val)) : Res WTree :=
  t.pushBranch ty name (items.map (Option.map ty.marshal))

/-- `for f in self.callbacks.iter_mut() { f(e) }`. -/
def calls (callbacks : Nat) (e : Event) : List (Nat × Event) :=
  (List.range callbacks).map fun i => (i, e)

/-- writer.rs 133-138: `tot += nbytes`, in `i32`. -/
def addBytes (tot : Int) : Option Int → Fs Int
  | none => pure tot
  | some n => Fs.i32 (tot + n)

/-- writer.rs 129-140: the branches in turn; the branches, whether each had nothing to write, the
bytes written, the calls made. -/
def writeRound (treeName : Str) (callbacks : Nat) :
    List WBranch → Int → Fs (List WBranch × List Bool × Int × List (Nat × Event))
  | [], tot => pure ([], [], tot, [])
  | b :: bs, tot => do
    let ev := calls callbacks (.branch b.branch.name)
    let (b, n) ← b.write treeName
    let tot ← addBytes tot n
    let (bs, done, tot, log) ← writeRound treeName callbacks bs tot
    pure (b :: bs, n.isNone :: done, tot, ev ++ log)

/-- writer.rs 123-148: the rounds; `done` tells which branches have once had nothing to write.  When the
lists of answers are used up all branches are done, so `fuel` rounds are enough when it exceeds their
lengths. -/
def writeRounds : Nat → List Bool → WTree → Fs WTree
  | 0, _, _ => Fs.panic
  | fuel + 1, done, t => do
    let (bs, now, tot, log) ← writeRound t.data.named.name t.callbacks t.branches 0
    let t := { t with
      branches := bs
      data := { t.data with totBytes := t.data.totBytes + tot }
      log := t.log ++ calls t.callbacks .before ++ log }
    let done := List.zipWith (fun a b => a || b) done now
    if done.all (fun d => d) then pure t
    else writeRounds fuel done { t with data := { t.data with entries := t.data.entries + 1 } }

/-- writer.rs 155-161 `flush`. -/
def flushAll : List WBranch → Fs (List WBranch)
  | [] => pure []
  | b :: bs => do
    let b ← b.flush
    let bs ← flushAll bs
    pure (b :: bs)

/-- Where the branches and their leaves are in memory when the tree is stored (writer.rs 246-261):
the addresses of the `i`-th branch and of its leaves. -/
abbrev Places := Nat → Nat × List Nat

/-- The branches with their addresses, from the `i`-th on. -/
def placeBranches (places : Places) : Nat → List WBranch → List PlacedBranch
  | _, [] => []
  | i, b :: bs =>
    { addr := (places i).1, leafAddrs := (places i).2, branch := b.branch } ::
      placeBranches places (i + 1) bs

/-- The tree as `put` sees it (writer.rs 286-310). -/
def WTree.putObj (t : WTree) (places : Places) : PutObj :=
  { name := t.data.named.name, title := t.data.named.title, cls := b! "TTree", vers := rversTree
    marshal := t.data.marshal (placeBranches places 0 t.branches) }

/-- `for si in sis.list().iter() { file.add_streamer_info(si.clone()) }`. -/
def registerAll : List StreamerInfo → Fs Unit
  | [] => pure ()
  | si :: sis => do
    registerInfo si
    registerAll sis

/-- writer.rs 164-182 `close`. -/
def WTree.close (env : Env) (places : Places) (t : WTree) : Fs WTree := do
  let bs ← flushAll t.branches
  let t := { t with branches := bs }
  put env t.data.named.name (t.putObj places)
  let sis ← Fs.orPanic t.sinfos
  registerAll sis
  pure { t with sinfos := none }

/-- The answers that are still to be asked for. -/
def WTree.left (t : WTree) : Nat := (t.branches.map fun b => b.items.length).sum

/-- writer.rs 115-153 `write`. -/
def WTree.write (env : Env) (places : Places) (t : WTree) : Fs WTree := do
  let t ← writeRounds (t.left + 1) (t.branches.map fun _ => false) t
  t.close env places

end Verif
