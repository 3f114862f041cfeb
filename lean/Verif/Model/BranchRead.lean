import Verif.Model.Open
import Verif.Model.Values
import Verif.Model.TreeWrite
/-
Iterating over a branch: rtree/basket.rs (raw_data), rtree/branch/tbranch.rs and tbranch_element.rs
(get_baskets_buffer, item_type_name), rtree/branch/mod.rs (get_basket, as_iter, ZiperBranches),
rtree/streamer_type.rs (header_bytes_from_type, clean_type_name), rtree/leaf.rs (type_name).

An `unwrap` on an error is an abort, so everything here fails with `panic`.  Positions and lengths cast
to `usize` from negative numbers are out of every slice, which is an abort too.  Texts are taken to be
ASCII where a regular expression or `is_alphabetic` looks at them.
-/
namespace Verif

/-- `unwrap()` on a `Result`. -/
def Res.unwrap {α} : Res α → Res α
  | .ok a => .ok a
  | .error _ => .error .panic

/-- `&buf[start as usize..stop as usize]`. -/
def slice (buf : List Byte) (start stop : Int) : Res (List Byte) :=
  if 0 ≤ start ∧ start ≤ stop ∧ stop ≤ buf.length then
    .ok ((buf.drop start.toNat).take (stop - start).toNat)
  else .error .panic

/-- A difference in `i32`; leaving the range aborts (debug build). -/
def i32Sub (a b : Int) : Res Int := if InI 4 (a - b) then .ok (a - b) else .error .panic

/-! ### The data of a basket, basket.rs 22-30 and 102-123 -/

/-- basket.rs 22-30 `BasketData`. -/
inductive BasketData where
  | trust (n : Int) (buf : List Byte)
  | unTrust (n : Int) (buf : List Byte) (offsets : List Int)
  deriving DecidableEq, Repr

/-- `.chunks(4).map(|x| i32::from_be_bytes(x.try_into().unwrap()) - key_len)`, the remaining bytes
being fewer than 4 aborts. -/
def offsetWords (keyLen : Int) : List Byte → Res (List Int)
  | [] => .ok []
  | a :: b :: c :: d :: rest => do
    let x ← i32Sub (toSigned 4 (beNat [a, b, c, d])) keyLen
    let xs ← offsetWords keyLen rest
    pure (x :: xs)
  | _ => .error .panic

/-- basket.rs 102-123 `raw_data`. -/
def Basket.rawData (dec : Decoders) (img : List Byte) (b : Basket) : Res BasketData := do
  let ret ← (b.key.load dec img).unwrap
  let border ← i32Sub b.last b.key.keyLen
  if border ≠ b.key.objLen then
    if border < 0 ∨ (ret.length : Int) < border then .error .panic
    else
      let data := ret.take border.toNat
      let words ← offsetWords b.key.keyLen (ret.drop border.toNat)
      let offsets := words.drop 1
      if offsets = [] then .error .panic
      else .ok (.unTrust b.nevBuf data (offsets.dropLast ++ [border]))
  else .ok (.trust b.nevBuf ret)

/-! ### The chunks of a branch -/

/-- rtree/branch/mod.rs 21-24 `BranchChunks`: a buffer of `n` entries, or one buffer per entry and the
size of the header in front of each. -/
inductive Chunk where
  | regular (n size : Int) (buf : List Byte)
  | irregular (n : Int) (data : List (List Byte)) (header : Int)
  deriving DecidableEq, Repr

/-- What a branch knows of its file: its contents, its class records and the decompressors. -/
structure Reader where
  dec : Decoders
  img : List Byte
  sinfos : List StreamerInfo := []

/-- The reader `get_tree` gives to the branches (file.rs 895-902). -/
def FileR.reader (f : FileR) (dec : Decoders) : Reader := ⟨dec, f.img, f.sinfos⟩

/-- The slices between consecutive offsets (tbranch.rs 251-258, tbranch_element.rs 403-413). -/
def slices (buf : List Byte) : List Int → Res (List (List Byte))
  | a :: b :: rest => do
    let s ← slice buf a b
    let ss ← slices buf (b :: rest)
    pure (s :: ss)
  | _ => .ok []

/-- The leaves that keep strings or objects: the size of an entry is then the one the basket
announces (tbranch.rs 217-223). -/
def Leaf.sized (l : Leaf) (size entrySize : Int) : Int :=
  match l with
  | .element .. | .var .C .. => entrySize
  | _ => size

/-- `buf.len() / chunk_size as usize`; a negative size as `usize` exceeds every length. -/
def countOf (buf : List Byte) (size : Int) : Res Nat :=
  if size = 0 then .error .panic
  else if size < 0 then .ok 0
  else .ok (buf.length / size.toNat)

/-- tbranch.rs 225-268: the chunk made of the data of a basket. -/
def BasketData.chunk (entries : Int) (leaf : Leaf) (size : Int) : BasketData → Res Chunk
  | .trust n buf => .ok (.regular n size buf)
  | .unTrust n buf offsets =>
    match leaf with
    | .var .C .. => .ok (.regular n size buf)
    | .element .. => .error .panic
    | _ => do
      let k ← countOf buf size
      if (k : Int) = entries then .ok (.regular (asI 4 k) size buf)
      else
        let data ← slices buf offsets
        pure (.irregular n data 0)

/-- tbranch_element.rs 371-436: the same for a `TBranchElement`. -/
def BasketData.chunkElement (header : Res Int) (leaf : Leaf) (size : Int) : BasketData → Res Chunk
  | .trust n buf => .ok (.regular n size buf)
  | .unTrust n buf offsets =>
    match leaf with
    | .var .C .. => .ok (.regular n size buf)
    | .element .. => do
      let h ← header
      let data ← slices buf offsets
      pure (.irregular n data h)
    | _ => do
      let k ← countOf buf size
      pure (.regular (asI 4 k) size buf)

/-- One basket of the table (tbranch.rs 204-216): where it is, its length, the size of an entry and the
leaf. -/
structure Slot where
  seek : Int
  bytes : Int
  size : Int
  leaf : Leaf

/-- tbranch.rs 204-216 with 225: reading the basket and its data. -/
def Slot.read (r : Reader) (s : Slot) : Res (Basket × BasketData) := do
  let buf ← (readAt r.img s.seek s.bytes).unwrap
  let b ← (readWith Basket.unmarshal buf).unwrap
  let d ← b.rawData r.dec r.img
  pure (b, d)

/-- tbranch.rs 140-179 and 202-203 (tbranch_element.rs 212-249, 334-340): the baskets to be read. -/
def BranchData.slots (d : BranchData) : Res (List Slot) := do
  let n := d.basketSeek.length
  let sizes := d.leaves.map fun l => l.tleaf.etype
  let sizes ← if sizes.length = n then .ok sizes else
    match sizes with
    | [] => if 1 < n then .error .panic else .ok sizes
    | s :: _ => .ok (sizes ++ List.replicate (n - 1) s)
  let leaves ← match d.leaves with
    | [l] => .ok (List.replicate n l)
    | ls => if ls.length = n then .ok ls else .error .panic
  let all := List.zipWith (fun (p : Int × Int) (q : Int × Leaf) => Slot.mk p.1 p.2 q.1 q.2)
    (List.zip d.basketSeek d.basketBytes) (List.zip sizes leaves)
  pure (all.filter fun s => 0 < s.bytes)

/-- tbranch.rs 181-200: the basket stored in the record of the branch. -/
def embeddedBase : List Basket → Res (List (Res Chunk))
  | [] => .ok []
  | [b] =>
    -- `key_len() as usize`: a negative length skips everything
    let skip := if b.key.keyLen < 0 then b.key.buffer.length else b.key.keyLen.toNat
    .ok [.ok (.regular b.nevBuf 1 (b.key.buffer.drop skip))]
  | _ => .error .panic

/-- tbranch_element.rs 256-319: the same for a `TBranchElement`. -/
def embeddedElement (header : Res Int) : List Basket → Res (List (Res Chunk))
  | [] => .ok []
  | [b] => do
    let h ← header
    .ok [do
      let data ← slices b.key.buffer (b.offsets ++ [asI 4 b.key.buffer.length])
      pure (.irregular 0 data h)]
  | _ => .error .panic

/-- tbranch.rs 137-274 `TBranch::get_baskets_buffer`: an iterator, whose items are made when they are
asked for. -/
def BranchData.chunks (r : Reader) (d : BranchData) : Res (List (Res Chunk)) := do
  let slots ← d.slots
  let embedded ← embeddedBase d.baskets
  pure (embedded ++ slots.map fun s => do
    let (b, bd) ← s.read r
    bd.chunk d.entries s.leaf (s.leaf.sized s.size b.nevSize))

/-! ### Names, streamer_type.rs -/

/-- A byte of `\s` among the ASCII ones. -/
def isSpaceByte (b : Byte) : Bool := b = 32 || (9 ≤ b && b ≤ 13)

/-- A byte of `[A-Za-z]`. -/
def isAlphaByte (b : Byte) : Bool := (65 ≤ b && b ≤ 90) || (97 ≤ b && b ≤ 122)

/-- streamer_type.rs 13-31 `parse_typename`: the first match of the expression of line 9; `*` is 42,
`:` 58, `<` 60, `>` 62, `,` 44, `_` 95. -/
def parseTypename (s : Str) : Res Int :=
  let s := s.dropWhile fun b => ¬ (isWordByte b || b = 60 || b = 62 || b = 44)
  match s with
  | [] => .error .panic
  | _ :: _ =>
    let w := s.takeWhile isWordByte
    let rest := (s.drop w.length).dropWhile isSpaceByte
    let longer : Bool :=
      match rest with
      | 42 :: _ => true
      | 58 :: 58 :: t =>
        match t.dropWhile isSpaceByte with
        | b :: _ => isAlphaByte b || b = 95
        | [] => false
      | _ => false
    if longer then .ok 0
    else if w = b! "vector" ∨ w = b! "set" then .ok 6
    else if w = b! "map" then .ok 12
    else .ok 0

/-- streamer_type.rs 33-141 `header_bytes_from_type`. -/
def headerBytesFromType (ty : Int) (streamer : Option Streamer) (className : Str) : Res Int :=
  let other : Res Int :=
    if ty = -1 then parseTypename className
    else if ty < 61 then .ok (if 40 < ty then 1 else 0)
    else if ty = 65 then .ok 0
    else if ty = 300 then .ok 6
    else .error .panic
  match streamer with
  | some (.string e) =>
    if e.etype = .named .tString then .ok 0
    else if e.etype = .named .offsetP16 then .error .panic
    else other
  | some (.stlString ..) => .ok 6
  | _ => other

/-- tbranch_element.rs 202-208 `clean_name`, group 2 of `(.*\.)*([^\.\[\]]*)(\[.*\])*`: what follows the
last dot (46) of the first line (a newline is 10), up to the next dot or bracket (91, 93). -/
def cleanName (s : Str) : Str :=
  let line := s.takeWhile (· ≠ 10)
  let tail := (line.reverse.takeWhile (· ≠ 46)).length
  (s.drop (line.length - tail)).takeWhile fun b => b ≠ 46 ∧ b ≠ 91 ∧ b ≠ 93

/-- tbranch_element.rs 89-98 `streamer`, with file.rs 955-960. -/
def BranchElem.streamer (r : Reader) (e : BranchElem) (name : Str) : Option Streamer :=
  match r.sinfos.reverse.find? (fun s => s.named.name = e.className) with
  | none => none
  | some si => si.get (cleanName name)

/-- tbranch_element.rs 261-265, 394-398. -/
def BranchElem.header (r : Reader) (e : BranchElem) (name : Str) : Res Int :=
  headerBytesFromType e.stype (e.streamer r name) e.className

/-- tbranch_element.rs 210-442 `TBranchElement::get_baskets_buffer`. -/
def BranchElem.chunks (r : Reader) (e : BranchElem) (d : BranchData) : Res (List (Res Chunk)) := do
  let slots ← d.slots
  let embedded ← embeddedElement (e.header r d.named.name) d.baskets
  pure (embedded ++ slots.map fun s => do
    let (b, bd) ← s.read r
    bd.chunkElement (e.header r d.named.name) s.leaf (s.leaf.sized s.size b.nevSize))

/-- rtree/branch/mod.rs 157-162 `get_baskets_buffer`. -/
def Branch.chunks (r : Reader) (b : Branch) : Res (List (Res Chunk)) :=
  match b.elem with
  | none => b.data.chunks r
  | some e => e.chunks r b.data

/-! ### Several branches side by side, rtree/branch/mod.rs 305-460 -/

/-- One column of `ZiperBranches`: the chunk in use, how many of its entries were given, how many it
has. -/
structure ZipColumn where
  buffer : Option Chunk
  current : Nat
  entries : Int

/-- What a chunk announces (mod.rs 355-358). -/
def Chunk.count : Chunk → Int
  | .regular n _ _ | .irregular n _ _ => n

/-- mod.rs 349-365 `fill_output`: a column for each iterator that still has something; the iterators. -/
def fillOutput : List (List (Res Chunk)) → Res (List (List (Res Chunk)) × List ZipColumn)
  | [] => .ok ([], [])
  | [] :: its => do
    let (its, cols) ← fillOutput its
    pure ([] :: its, cols)
  | (c :: cs) :: its => do
    let c ← c
    let (its, cols) ← fillOutput its
    pure (cs :: its, ⟨some c, 0, c.count⟩ :: cols)

/-- mod.rs 421-456, one column: its bytes, the column afterwards and its iterator.  A negative number of
entries is never reached. -/
def ZipColumn.step (col : ZipColumn) (it : List (Res Chunk)) :
    Res (List Byte × ZipColumn × List (Res Chunk)) :=
  match col.buffer with
  | none => .error .panic
  | some (.irregular ..) => .error .panic
  | some (.regular n size buf) => do
    -- `*chunk_size as usize`: a negative size overflows in the product or the sum, or is out of the
    -- buffer
    let bytes ← if size < 0 then .error .panic
      else slice buf (col.current * size) ((col.current + 1) * size)
    let cur := col.current + 1
    if (cur : Int) = col.entries then
      match it with
      | [] => pure (bytes, { col with buffer := none, current := cur }, [])
      | c :: cs => do
        let c ← c
        pure (bytes, ⟨some c, 0, c.count⟩, cs)
    else pure (bytes, { buffer := some (.regular n size buf), current := cur, entries := col.entries }, it)

/-- mod.rs 421-456: all columns in turn; `iterators[ib]` is the iterator of the column of the same
number. -/
def zipSteps : List ZipColumn → List (List (Res Chunk)) →
    Res (List Byte × List ZipColumn × List (List (Res Chunk)))
  | [], its => .ok ([], [], its)
  | _ :: _, [] => .error .panic
  | col :: cols, it :: its => do
    let (bs, col, it) ← col.step it
    let (bss, cols, its) ← zipSteps cols its
    pure (bs ++ bss, col :: cols, it :: its)

/-- mod.rs 407-415: adding the sizes aborts on an irregular chunk. -/
def ZipColumn.regular (c : ZipColumn) : Bool :=
  match c.buffer with
  | some (.irregular ..) => false
  | _ => true

/-- mod.rs 386-459 `next`, called at most `calls` times; the entries. -/
def zipAll : Nat → List ZipColumn → List (List (Res Chunk)) → Res (List (List Byte))
  | 0, _, _ => .ok []
  | calls + 1, cols, its => do
    let (its, cols) ← if cols = [] then fillOutput its else .ok (its, cols)
    if cols = [] then .ok []
    else if cols.any fun c => c.buffer.isNone then .ok []
    else if cols.all ZipColumn.regular = false then .error .panic
    else do
      let (bs, cols, its) ← zipSteps cols its
      let rest ← zipAll calls cols its
      pure (bs :: rest)

/-- How many times a chunk can be used. -/
def Chunk.uses : Res Chunk → Nat
  | .ok (.regular n _ buf) => n.toNat + buf.length
  | _ => 0

/-- As many calls as can be answered: an entry has at least one byte, or the chunk announces how many
it has.  (A chunk of a negative number of entries of no byte would be used for ever.) -/
def zipCalls (its : List (List (Res Chunk))) : Nat :=
  (its.map fun it => (it.map Chunk.uses).sum).sum + 1

/-! ### Reading the items, rtree/branch/mod.rs 164-264 -/

/-- All items, the first failure being the result. -/
def collect {α} : List (Res α) → Res (List α)
  | [] => .ok []
  | x :: xs => do
    let a ← x
    let as ← collect xs
    pure (a :: as)

/-- mod.rs 197-233: the items of a chunk; `func` is `read_object_into().unwrap()`.
`Vec::with_capacity(n as usize)` aborts on a negative `n`. -/
def Chunk.items {α} (func : Rd α) : Chunk → Res (List α)
  | .regular n _ buf =>
    if n < 0 then .error .panic else (readWith (Rd.times n.toNat func) buf).unwrap
  | .irregular _ data header =>
    collect (data.map fun buf => (readWith (do Rd.setSkip (some header); func) buf).unwrap)

/-- The sub-branches give their chunks as `TBranch` does (mod.rs 316-346). -/
def subChunks (r : Reader) (bs : List Branch) : Res (List (List (Res Chunk))) :=
  collect (bs.map fun b => b.data.chunks r)

/-- mod.rs 164-240 `get_basket`, and 268-273 `as_iter_unchecked`, the iterator being run to its end. -/
def Branch.getBasket {α} (r : Reader) (func : Rd α) (b : Branch) : Res (List α) :=
  match b.branches with
  | [] => do
    let cs ← b.chunks r
    let vs ← collect (cs.map fun c => do let c ← c; c.items func)
    pure vs.flatten
  | bs => do
    let its ← subChunks r bs
    let bufs ← zipAll (zipCalls its) [] its
    collect (bufs.map fun buf => (readWith func buf).unwrap)

/-! ### The type of the items -/

/-- leaf.rs 155-181 `type_name`. -/
def Leaf.typeName : Leaf → Option Str
  | .base _ | .element .. => none
  | .var k _ t _ _ =>
    some (match k with
      | .I => if t.unsigned then b! "uint32_t" else b! "int32_t"
      | .S => if t.unsigned then b! "uint16_t" else b! "int16_t"
      | .B => if t.unsigned then b! "uint8_t" else b! "int8_t"
      | .L => if t.unsigned then b! "uint64_t" else b! "int64_t"
      | .D => b! "double"
      | .F => b! "float"
      | .O => b! "bool"
      | .C => b! "char*")

/-- `^([^\[\]]*)(\[[^\[\]]+\])+` matches (tbranch.rs 291). -/
def titleHasDims (s : Str) : Bool :=
  match s.dropWhile (fun b => b ≠ 91 ∧ b ≠ 93) with
  | 91 :: t =>
    let inner := t.takeWhile fun b => b ≠ 91 ∧ b ≠ 93
    inner ≠ [] ∧ (t.drop inner.length).head? = some 93
  | _ => false

/-- A decimal digit. -/
def isDigitByte (b : Byte) : Bool := 48 ≤ b && b ≤ 57

/-- The value of decimal digits. -/
def digitsVal (s : Str) : Nat := s.foldl (fun n b => 10 * n + (b.toNat - 48)) 0

/-- Group 1 of the first match of `\[([1-9][0-9]*)\]` (tbranch.rs 292). -/
def dimPattern : Str → Option Str
  | [] => none
  | b :: s =>
    let ds := s.takeWhile isDigitByte
    if b = 91 ∧ ds ≠ [] ∧ ds.head? ≠ some 48 ∧ (s.drop ds.length).head? = some 93 then some ds
    else dimPattern s

/-- tbranch.rs 295-308: the dimension in the title of a leaf; `parse::<i32>().unwrap()` aborts on a
number that is too large. -/
def leafDim (title : Str) : Res (Option Int) :=
  if titleHasDims title then
    match dimPattern title with
    | some ds => if digitsVal ds < 2 ^ 31 then .ok (some (digitsVal ds)) else .error .panic
    | none => .ok (some 0)
  else .ok none

/-- tbranch.rs 311-322: `s`, `s[dim]` or `s[]`. -/
def withDim (s : Str) : Option Int → Str
  | none => s
  | some d => if 0 < d then s ++ b! "[" ++ decimalI d ++ b! "]" else s ++ b! "[]"

/-- tbranch.rs 280-328 `TBranch::item_type_name`. -/
def BranchData.itemTypeName (d : BranchData) : Res Str :=
  match d.leaves with
  | [l] => do
    let dim ← leafDim l.tleaf.named.title
    match l.typeName with
    | some s => pure (withDim s dim)
    | none => .error .panic
  | _ => .ok (b! "unknown")

/-- `str::replace`: all occurrences from left to right; `fuel` bounds the length. -/
def replaceAll (pat to : Str) : Nat → Str → Str
  | 0, s => s
  | _, [] => []
  | fuel + 1, b :: s =>
    if pat ≠ [] ∧ pat.isPrefixOf (b :: s) then to ++ replaceAll pat to fuel ((b :: s).drop pat.length)
    else b :: replaceAll pat to fuel s

/-- `s.replace(pat, to)` for a non-empty `pat`. -/
def replaceStr (s pat to : Str) : Str := replaceAll pat to s.length s

/-- streamer_type.rs 199-254 `replace_string`: the occurrences that have no letter before or after
them; `before` is what precedes. -/
def replaceWords (pat to : Str) : Nat → Option Byte → Str → Str
  | 0, _, s => s
  | _, _, [] => []
  | fuel + 1, before, b :: s =>
    if pat ≠ [] ∧ pat.isPrefixOf (b :: s) then
      let after := ((b :: s).drop pat.length).head?
      let free : Bool := (before.all fun c => !isAlphaByte c) && (after.all fun c => !isAlphaByte c)
      (if free then to else pat) ++ replaceWords pat to fuel pat.getLast? ((b :: s).drop pat.length)
    else b :: replaceWords pat to fuel (some b) s

/-- streamer_type.rs 257-277 `clean_type_name`. -/
def cleanTypeName (s : Str) : Str :=
  let s := replaceStr s (b! "unsigned int") (b! "uint32_t")
  let s := replaceWords (b! "int") (b! "int32_t") s.length none s
  let s := replaceStr s (b! "uint32_t32_t") (b! "uint32_t")
  let s := replaceStr s (b! "int32_t32_t") (b! "int32_t")
  let s := replaceStr s (b! "uint32_t16_t") (b! "uint16_t")
  let s := replaceStr s (b! "uint32_t8_t") (b! "uint8_t")
  let s := replaceStr s (b! "int32_t16_t") (b! "int16_t")
  let s := replaceStr s (b! "int32_t8_t") (b! "int8_t")
  let s := replaceStr s (b! "int32_t64_t") (b! "int64_t")
  let s := replaceStr s (b! "unsigned short") (b! "uint16_t")
  let s := replaceStr s (b! "short") (b! "int16_t")
  let s := replaceStr s (b! "unsigned long") (b! "uint64_t")
  let s := replaceStr s (b! "long") (b! "int64_t")
  replaceStr s (b! " ") []

/-- streamer_type.rs 143-197 `_from_leaftype_to_str`, with rmeta/consts.rs 202-255. -/
def leafTypeName (t : Int) : Option Str :=
  if t < 0 then none
  else
    let t := if 20 < t ∧ t < 40 then t - 20 else t
    let t := if 40 < t ∧ t - 40 < 40 then t - 40 else t
    if t = 1 then some (b! "int8_t")
    else if t = 11 then some (b! "uint8_t")
    else if t = 2 then some (b! "int16_t")
    else if t = 12 then some (b! "uint16_t")
    else if t = 3 then some (b! "int32_t")
    else if t = 13 ∨ t = 15 ∨ t = 6 then some (b! "uint32_t")
    else if t = 4 then some (b! "int64_t")
    else if t = 14 then some (b! "uint64_t")
    else if t = 5 then some (b! "float")
    else if t = 8 then some (b! "double")
    else if t = 65 then some (b! "TString")
    else none

/-- tbranch_element.rs 109-200 `_item_type_name`; `top` is `is_top_level() == Some(true)`. -/
def BranchElem.itemTypeName (r : Reader) (top : Bool) (e : BranchElem) (d : BranchData)
    (subs : List Branch) : Res Str :=
  if subs ≠ [] then
    if top then (if e.className ≠ [] then .ok e.className else .error .panic)
    else
      match e.streamer r d.named.name with
      | none => .error .panic
      | some s => .ok s.element.named.name
  else
    match d.leaves with
    | [l] => do
      let dim ← leafDim l.tleaf.named.title
      match l.typeName with
      | some t => pure t
      | none =>
        match l with
        | .element _ _ _ ltype =>
          match leafTypeName ltype with
          | some s => pure (withDim s dim)
          | none =>
            if e.stype = 65 then pure (b! "TString")
            else if e.stype = 300 ∨ e.stype = -1 then
              match e.streamer r d.named.name with
              | none => pure (cleanTypeName e.className)
              | some s => pure (cleanTypeName s.element.ename)
            else .error .panic
        | _ => .error .panic
    | _ => d.itemTypeName

/-- rtree/branch/mod.rs 88-93 `item_type_name`. -/
def Branch.itemTypeName (r : Reader) (top : Bool) (b : Branch) : Res Str :=
  match b.elem with
  | none => b.data.itemTypeName
  | some e => e.itemTypeName r top b.data b.branches

/-- `Unmarshaler::class_name`: rbytes/mod.rs 125-146 (primitives), 271-277 (String), 315-327 (Vec),
443-455 (arrays). -/
def Ty.rdClassNames : Ty → List Str
  | .bool => [b! "bool"]
  | .i8 => [b! "int8_t"]
  | .u8 => [b! "uint8_t"]
  | .i16 => [b! "int16_t"]
  | .u16 => [b! "uint16_t"]
  | .i32 => [b! "int32_t"]
  | .u32 => [b! "uint32_t"]
  | .i64 => [b! "int64_t"]
  | .u64 => [b! "uint64_t"]
  | .f32 => [b! "float"]
  | .f64 => [b! "double"]
  | .string => [b! "string", b! "char*", b! "TString"]
  | .vec t => t.rdClassNames.map fun c => b! "vector<" ++ c ++ b! ">"
  | .arr n t => t.rdClassNames.map fun c => c ++ b! "[" ++ decimal n ++ b! "]"

/-- rtree/branch/mod.rs 243-264 `as_iter`, for a type with the given accepted names (a derived
structure has none), the iterator being run to its end. -/
def Branch.asIter {α} (r : Reader) (top : Bool) (names : Option (List Str)) (func : Rd α) (b : Branch) :
    Res (List α) := do
  let ok ← match names with
    | none => .ok true
    | some tys => do
      let n ← b.itemTypeName r top
      pure (tys.contains n)
  if ok then b.getBasket r func else .error (.err .typeMismatch)

end Verif
