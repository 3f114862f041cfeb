import Verif.Lemmas.RootFiles
import Verif.Props.RootTrees
import Verif.Props.Reopen
/-
C63: files that ROOT wrote.
-/
namespace Verif

variable {f : RootFile} {dec : Decoders} {img : List Byte}

theorem readWith_fails {α β} {m : Rd α} {g : α → Rd β} {data : List Byte} {off : Nat} {e : Fault}
    (h : readWith m data off = .error e) : readWith (m >>= g) data off = .error e := by
  unfold readWith at h ⊢
  cases hx : m { p := data, c := 0, offset := off, refs := [], skip := none } with
  | ok a => rw [hx] at h; cases h
  | error x =>
    rw [hx] at h
    cases h
    rw [Rd.bind_err hx]

/-- What opening a file comes to when its header and its directory can be read. -/
theorem RootFile.In.opened (h : f.Ok) (hi : f.In dec img) (fuel : Nat) : openFile dec fuel img = (do
    let dir ← readDirInfo img f.header
    let spans ← whenPositive f.header.seekFree (readFreeSegments dec img f.header)
    let sinfos ← whenPositive f.header.seekInfo (readStreamerInfo dec fuel img f.header)
    let keys ← readKeys img dir
    pure { header := f.header, spans := spans, sinfos := sinfos, dir := { dir with keys := keys }, img := img }) := by
  obtain ⟨rest, hr, hl⟩ := readAt_more (pos := 0) (len := (76 : Int)) (by decide) (by have := RootFile.headerLength h; omega)
    (by have := hi.longer; omega) (show Stored img (0 : Int).toNat f.headerBytes from hi.header)
  have r1 : readWith FileHeader.unmarshal (f.headerBytes ++ rest) = .ok f.header := readWith_reads (RootFile.headerReads h) rfl
  unfold openFile
  rw [show (64 + 12 : Int) = 76 from rfl, Res.bind_ok hr, Res.bind_ok r1]

/-- C63: a file that ROOT wrote opens, whether its positions are of four or of eight bytes and whether the
records of its free segments and its classes are compressed or not.  Its header, the name of its directory,
its keys, its free segments and its classes with their members are seen as they were written.  What is missing
are files with a long name, and some classes; see below. -/
theorem C63_open_partial (h : f.Ok) (hs : f.infos.Ok) (hn : f.ShortName) (hi : f.In dec img) (fuel : Nat) (hf : 3 ≤ fuel) :
    openFile dec fuel img = .ok (f.seen img) := by
  obtain ⟨fuel, rfl⟩ : ∃ n, fuel = n + 3 := ⟨fuel - 3, by omega⟩
  have h1 := hi.openDir h
  rw [if_neg (by unfold RootFile.ShortName at hn; omega)] at h1
  obtain ⟨d, hd, h1⟩ : ∃ d, d = { f.dir.afterRead f.dir.ctime f.dir.mtime with
      className := f.top.cls, name := f.top.name, title := f.top.title } ∧ readDirInfo img f.header = .ok d := ⟨_, rfl, h1⟩
  rw [hi.opened h, Res.bind_ok h1]
  unfold whenPositive
  rw [if_pos h.freeAt.2, if_pos h.infoAt.2.1, Res.bind_ok (hi.openFree h), Res.bind_ok (hi.openInfos h hs fuel),
    Res.bind_ok (hi.openKeys h d (by rw [hd]; rfl) (by rw [hd]; rfl)), hd]
  rfl

/-- C63 is false of files with a name, or a title, that takes more than 1000 bytes with the key it is in: none
of them opens. -/
theorem C63_long_name_false (h : f.Ok) (hi : f.In dec img) (hlong : 1000 < f.header.nBytesName) (fuel : Nat) :
    openFile dec fuel img = .error (.err .cantReadDirectoryInfo) := by
  have h1 := hi.openDir h
  rw [if_pos (Or.inr hlong)] at h1
  rw [hi.opened h, h1]
  rfl

/-- A file whose list of classes cannot be read does not open, whatever else is in it. -/
theorem RootFile.In.classesFail (h : f.Ok) (hn : f.ShortName) (hi : f.In dec img) (fuel : Nat) (e : Fault)
    (he : readWith (TList.unmarshal (readAny fuel)) f.info.payload f.info.key.keyLen.toNat = .error e) :
    openFile dec fuel img = .error e := by
  have h1 := hi.openDir h
  rw [if_neg (by unfold RootFile.ShortName at hn; omega)] at h1
  have h2 : readStreamerInfo dec fuel img f.header = .error e := by
    obtain ⟨data, r1, r2⟩ := hi.info.read
    have r3 := hi.info.load
    obtain ⟨p1, p2, p3⟩ := h.infoAt
    unfold readStreamerInfo
    rw [if_neg (by omega), p1, h.infoBytes, Res.bind_ok r1, Res.bind_ok r2]
    have hobj : Key.object dec fuel img (f.info.key.afterRead f.info.date) = .error e := by
      unfold Key.object
      rw [Res.bind_ok r3]
      have hf : factory fuel (f.info.key.afterRead f.info.date).cls = some (do
            let l ← TList.unmarshal (readAny fuel)
            pure (Obj.list l.1 l.2.1 l.2.2)) := by
        show unmarshalOf _ f.info.key.cls = _
        rw [h.infoClass]
        rfl
      simp only [hf]
      exact readWith_fails he
    rw [hobj]
    rfl
  rw [hi.opened h, Res.bind_ok h1]
  unfold whenPositive
  rw [if_pos h.freeAt.2, if_pos h.infoAt.2.1, Res.bind_ok (hi.openFree h), h2]
  rfl

/-- The key with the highest cycle is the one that is found. -/
theorem chooseKey_highest {name : Str} {keys : List Key} {k : Key} (hk : k ∈ keys) (hn : k.name = name)
    (hmax : ∀ q ∈ keys, q.name = name → q = k ∨ q.cycle < k.cycle) : chooseKey name keys = .ok k := by
  have hmem : k ∈ keys.filter (fun q => q.name = name) := List.mem_filter.2 ⟨hk, by simpa using hn⟩
  have hmax : ∀ q ∈ keys.filter (fun q => q.name = name), q = k ∨ q.cycle < k.cycle := fun q hq =>
    hmax q (List.mem_filter.1 hq).1 (by simpa using (List.mem_filter.1 hq).2)
  unfold chooseKey
  generalize keys.filter (fun q => q.name = name) = ks at hmem hmax
  have hsort : ∀ ks : List Key, k ∈ ks → (∀ q ∈ ks, q = k ∨ q.cycle < k.cycle) →
      (ks.mergeSort (fun a b => decide (a.cycle ≤ b.cycle))).getLast? = some k := by
    intro ks hmem hmax
    have hp := List.mergeSort_perm ks (fun a b => decide (a.cycle ≤ b.cycle))
    have hs := List.pairwise_mergeSort (le := fun a b : Key => decide (a.cycle ≤ b.cycle))
      (by intro a b c h1 h2; simp only [decide_eq_true_eq] at *; omega)
      (by intro a b; simp only [Bool.or_eq_true, decide_eq_true_eq]; omega) ks
    generalize ks.mergeSort (fun a b => decide (a.cycle ≤ b.cycle)) = l at hp hs
    have hk : k ∈ l := hp.mem_iff.2 hmem
    obtain ⟨x, hx⟩ : ∃ x, l.getLast? = some x := by
      cases l with
      | nil => cases hk
      | cons a l => exact ⟨_, List.getLast?_eq_some_getLast (by simp)⟩
    obtain ⟨ys, rfl⟩ := List.getLast?_eq_some_iff.1 hx
    rw [hx]
    rcases hmax x (hp.mem_iff.1 (by simp)) with h | h
    · rw [h]
    · rcases List.mem_append.1 hk with hk | hk
      · have := (List.pairwise_append.1 hs).2.2 k hk x (by simp)
        simp only [decide_eq_true_eq] at this
        omega
      · simp only [List.mem_singleton] at hk
        rw [hk]
  match ks, hmem, hmax with
  | [], h, _ => cases h
  | [a], h, _ => simp only [List.mem_singleton] at h; rw [h]
  | a :: b :: ks, h1, h2 =>
    show (match ((a :: b :: ks).mergeSort (fun a b => decide (a.cycle ≤ b.cycle))).getLast? with | some k => Except.ok k | none => Except.error Fault.panic) = _
    rw [hsort _ h1 h2]

/-- C63, the objects: of the keys with a name without `;`, the one with the highest cycle is used, and the bytes
behind it are the record, however it is compressed. -/
theorem C63_find (f : RootFile) (dec : Decoders) (img : List Byte) (r : RootRecord) (h : f.Keeps r) (hi : r.In dec img)
    (hc : r.key.cls ≠ b! "TDirectory") :
    ∃ p : Place, p.Holds dec (f.seen img) r.key.name r.payload ∧ p.key.cls = r.key.cls ∧ p.key.keyLen = r.key.keyLen ∧
      p.key.title = r.key.title ∧ p.key.cycle = r.key.cycle := by
  have hs : seenKey (r.key, r.date) = r.key.afterRead r.date := by
    unfold seenKey Key.afterRead
    rw [if_neg hc]
  have hfind : (f.seen img).findKey r.key.name = .ok (seenKey (r.key, r.date)) := by
    rw [findKey_of h.name]
    refine chooseKey_highest (List.mem_map_of_mem h.key) rfl ?_
    intro q hq hn
    obtain ⟨k, hk, rfl⟩ := List.mem_map.1 hq
    rcases h.newest k hk hn with h | h
    · exact .inl (by rw [h])
    · exact .inr h
  have hb : ∀ l : List Byte, rootKey r.key r.date ++ l <+: img.drop r.key.seekKey.toNat →
      l <+: img.drop (r.key.seekKey + r.key.keyLen).toNat := by
    rintro l ⟨t, ht⟩
    have h1 := hi.seekKey
    have h2 := hi.keyLen
    have e : (r.key.seekKey + r.key.keyLen).toNat = r.key.seekKey.toNat + (rootKey r.key r.date).length := by omega
    rw [e, ← List.drop_drop, ← ht, List.append_assoc, List.drop_left]
    exact List.prefix_append _ _
  refine ⟨{ key := seenKey (r.key, r.date), block := r.block }, ⟨hfind, hi.seekKey, ?_, ⟨hi.key.seek8, hi.key.2.1⟩, hi.objLen, ?_, ?_⟩, ?_, rfl, rfl, rfl⟩
  · show 0 ≤ r.key.keyLen
    have := hi.keyLen
    omega
  · intro hn
    have hn : r.block = none := hn
    have h1 := hi.nBytes
    have h2 := hi.there
    unfold RootRecord.bytes at h1 h2
    rw [hn] at h1 h2
    simp only at h1 h2
    refine ⟨?_, hb _ h2⟩
    have := hi.keyLen
    rw [List.length_append] at h1
    show r.key.nBytes = r.key.keyLen + _
    omega
  · intro z hz
    have hz : r.block = some z := hz
    obtain ⟨z1, z2, z3⟩ := hi.block z hz
    have h1 := hi.nBytes
    have h2 := hi.there
    unfold RootRecord.bytes at h1 h2
    rw [hz] at h1 h2
    simp only at h1 h2
    refine ⟨z1, z2, z3, ?_, hb _ h2⟩
    have := hi.keyLen
    rw [List.length_append] at h1
    show r.key.nBytes = r.key.keyLen + _
    omega
  · rw [hs]; rfl

/-- C63, the trees: with the record of a tree behind one of its keys, C61 holds of the opened file. -/
theorem C63_tree (f : RootFile) (dec : Decoders) (img : List Byte) (r : RootRecord) (h : f.Keeps r) (hi : r.In dec img)
    (hc : r.key.cls = b! "TTree") (t : RootTree) (ht : t.Ok) (hr : t.Record r.key.keyLen.toNat r.payload)
    (hsmall : r.key.keyLen.toNat + r.payload.length < 2 ^ 30) : t.In dec (f.seen img) r.key.name := by
  obtain ⟨p, h1, h2, h3, -⟩ := C63_find f dec img r h hi (by rw [hc]; decide)
  exact ⟨ht, p, r.payload, h1, by rw [h3]; exact hr, by rw [h2, hc], by rw [h3]; exact hsmall⟩

/-- C63, from the bytes of the file to the values: the file opens, the tree is found in it, the branch among its
branches, and its entries are the values in its baskets, in order. -/
theorem C63_entries {ty : Ty} (f : RootFile) (dec : Decoders) (img : List Byte) (h : f.Ok) (hs : f.infos.Ok)
    (hn : f.ShortName) (hi : f.In dec img) (r : RootRecord) (hk : f.Keeps r) (hr : r.In dec img)
    (hc : r.key.cls = b! "TTree") (t : RootTree) (ht : t.Ok) (htr : t.Record r.key.keyLen.toNat r.payload)
    (hsmall : r.key.keyLen.toNat + r.payload.length < 2 ^ 30) (fuel : Nat) (hf : RootBranch.depthAll t.branches + 3 ≤ fuel)
    (b : RootBranch) (hb : b ∈ RootBranch.listAll t.branches)
    (l : Leaf) (bs : List RootBasket) (hbs : b.Filled ((f.seen img).reader dec) l bs) (groups : List (List ty.Val))
    (hold : Hold bs (marshalled ty) groups) (htab : ∀ x ∈ bs, x.table = true → l.isText)
    (hok : ∀ g ∈ groups, ∀ v ∈ g, ty.Ok v) :
    ∃ file td branches x, openFile dec fuel img = .ok file ∧ file.getTree dec fuel r.key.name = .ok (td, branches, none) ∧
      x ∈ branchesR branches ∧ x.name = b.shape.data.named.name ∧ x.data.entries = b.shape.data.entries ∧
      x.getBasket (file.reader dec) ty.unmarshal = .ok groups.flatten := by
  obtain ⟨td, brs, x, h1⟩ := C61_entries t dec _ _ (C63_tree f dec img r hk hr hc t ht htr hsmall) fuel (by omega) b hb l bs hbs
    groups hold htab hok
  exact ⟨_, td, brs, x, C63_open_partial h hs hn hi fuel (by omega), h1⟩

/-! ### A case -/

/-- A class with a base, an array, a pointer to an array and a vector, with rules behind it. -/
def demoInfos : RootInfos :=
  { infos := [{ addr := 1, arrayAddr := 2, named := { name := b! "Event" }, chksum := 4000000000, clsver := 3, members := [
      { addr := 3, kind := .base 1, named := { name := b! "TObject" }, code := 66, typeName := b! "BASE" },
      { addr := 4, kind := .basic, named := { name := b! "p" }, code := 5, size := 12, arrLen := 3, arrDim := 1,
        maxIdx := [3, 0, 0, 0, 0], typeName := b! "float" },
      { addr := 5, kind := .basicPointer 3 (b! "n") (b! "Event"), named := { name := b! "q", title := b! "[n] charges" },
        code := 43, size := 4, typeName := b! "int*" },
      { addr := 6, kind := .stl .vector 5, named := { name := b! "v" }, code := 500, size := 24, typeName := b! "vector<float>" }] }]
    rules := some { addr := 7, rules := [⟨8, b! "rule"⟩] } }

/-- The same with a member whose title is an ordinary remark with a unit. -/
def unitInfos : RootInfos :=
  { infos := [{ addr := 1, arrayAddr := 2, named := { name := b! "Event" }, chksum := 1, clsver := 3, members := [
      { addr := 3, kind := .basic, named := { name := b! "e", title := b! "energy [MeV]" }, code := 5, size := 4,
        typeName := b! "float" }] }] }

/-- A class with a pointer to an object of a class that is not a `TObject`. -/
def pointerInfos : RootInfos :=
  { infos := [{ addr := 1, arrayAddr := 2, named := { name := b! "Event" }, chksum := 1, clsver := 3, members := [
      { addr := 3, kind := .objectAnyPointer, named := { name := b! "hit" }, code := 69, size := 8, typeName := b! "Hit*" }] }] }

def RootInfos.bytes (s : RootInfos) (keyLen : Nat) : List Byte :=
  match s.write (WBuffer.new keyLen) with
  | .ok (_, w) => w.p
  | .error _ => []

def rootFree : RootRecord :=
  { key := { nBytes := 50, rvers := 4, objLen := 10, keyLen := 40, cycle := 1, seekKey := 395, seekPdir := 100
             cls := b! "TFile", name := b! "a.root", title := [] }
    date := 2030000000, payload := RootSegment.bytes ⟨false, 9000, 2000000000⟩ }

def rootTreeRecord (tree : List Byte) : RootRecord :=
  { key := { nBytes := 768, rvers := 4, objLen := 718, keyLen := 50, cycle := 2, seekKey := 445, seekPdir := 100
             cls := b! "TTree", name := b! "t", title := b! "A tree of fives" }
    date := 2030000001, payload := tree }

/-- Two versions of a tree, the last written first in the list. -/
def rootKeys : List (Key × Nat) :=
  [((rootTreeRecord []).key, 2030000001), ({ (rootTreeRecord []).key with cycle := 1, seekKey := 300 }, 2030000000)]

def rootKeyList : RootRecord :=
  { key := { nBytes := 144, rvers := 4, objLen := 104, keyLen := 40, cycle := 1, seekKey := 251, seekPdir := 100
             cls := b! "TFile", name := b! "a.root", title := [] }
    date := 2030000000, payload := bigEndian 4 2 ++ rootKeys.flatMap fun k => rootKey k.1 k.2 }

def rootInfoRecord (info : List Byte) : RootRecord :=
  { key := { nBytes := 64 + info.length, rvers := 4, objLen := info.length, keyLen := 64, cycle := 1, seekKey := 1213, seekPdir := 100
             cls := b! "TList", name := b! "StreamerInfo", title := b! "Doubly linked list" }
    date := 2030000000, payload := info }

def fileNames : List Byte := b! "\x06a.root\x00"

/-- A file with baskets from 100 on, the list of its keys, its free segments, a tree, its classes, and its directory,
with its name and title once more in it. -/
def rootFile (infos : RootInfos) (info : List Byte) (names : List Byte := fileNames) : RootFile :=
  { big := false
    header := { version := 62400, begin_ := 1277 + info.length, end_ := 1377 + info.length + names.length, seekFree := 395
                nBytesFree := 50, nFree := 1, nBytesName := 40 + names.length, units := 4, compression := 101, seekInfo := 1213
                nBytesInfo := 64 + info.length, uuid := List.replicate 16 7 }
    top := { nBytes := 100 + names.length, rvers := 4, objLen := 60 + names.length, keyLen := 40, cycle := 1
             seekKey := 1277 + info.length, seekPdir := 0, cls := b! "TFile", name := b! "a.root", title := [] }
    topDate := 2030000000
    names := names
    dir := { rvers := 5, ctime := 2030000000, mtime := 2030000001, nBytesKeys := 144, nBytesName := 40 + names.length
             seekDir := 1277 + info.length, seekParent := 0, seekKeys := 251, uuid := List.replicate 16 7 }
    keyList := rootKeyList, keys := rootKeys, free := rootFree, segments := [⟨false, 9000, 2000000000⟩]
    info := rootInfoRecord info, infos := infos }

def rootImage (infos : RootInfos) (info tree : List Byte) (names : List Byte := fileNames) : List Byte :=
  let f := rootFile infos info names
  f.headerBytes ++ (List.replicate 37 0 ++ (twoBaskets.flatMap RootBasket.record ++ (f.keyList.bytes ++ (f.free.bytes ++
    ((rootTreeRecord tree).bytes ++ (f.info.bytes ++ ((rootKey f.top f.topDate ++ (f.names ++ f.dirBytes)) ++ List.replicate 12 0)))))))

theorem prefix_at {pre p rest : List Byte} {n : Nat} (h : pre.length = n) : p <+: (pre ++ (p ++ rest)).drop n := by
  rw [← h, List.drop_left]
  exact List.prefix_append _ _

/-- Numbers that fit. -/
theorem sum_fits {n m : Nat} (k : Nat) (hn : n < 10000) (hm : m < 10000) (hk : k < 10000) : InI 4 ((k : Int) + n + m) := by
  unfold InI; omega

theorem sum_fits1 {n : Nat} (k : Nat) (hn : n < 10000) (hk : k < 10000) : InI 4 ((k : Int) + n) := by
  unfold InI; omega

theorem rootFile_ok {infos : RootInfos} {info names : List Byte} (hr : infos.Record 64 info) (hs : info.length < 10000)
    (hn : names.length < 10000) : (rootFile infos info names).Ok where
  version := (by decide : 0 < (rootFile { infos := [] } []).header.version ∧ (rootFile { infos := [] } []).header.version < 1000000)
  begin_ := ⟨by show (0 : Int) ≤ 1277 + info.length; omega, sum_fits1 1277 hs (by decide)⟩
  end_ := sum_fits 1377 hs hn (by decide)
  seekFree := (by decide : InSeek (rootFile { infos := [] } []).big (rootFile { infos := [] } []).header.seekFree)
  nBytesFree := (by decide : InI 4 (rootFile { infos := [] } []).header.nBytesFree)
  nFree := (by decide : InI 4 (rootFile { infos := [] } []).header.nFree)
  units := (by decide : (rootFile { infos := [] } []).header.units < 256)
  compression := (by decide : InI 4 (rootFile { infos := [] } []).header.compression)
  seekInfo := (by decide : InSeek (rootFile { infos := [] } []).big (rootFile { infos := [] } []).header.seekInfo)
  nBytesInfo := sum_fits1 64 hs (by decide)
  uuid := (by decide : (rootFile { infos := [] } []).header.uuid.length = 16)
  top := ⟨by show (0 : Int) ≤ 100 + names.length; omega, sum_fits1 100 hn (by decide), (by decide : InI 2 4),
    fun h => by
      have : (kStartBigFile : Int) < 1277 + info.length := h
      unfold kStartBigFile at this
      omega,
    sum_fits1 60 hn (by decide), (by decide : InI 2 40), (by decide : InI 2 1), sum_fits1 1277 hs (by decide),
    (by decide : InSeek false 0), (by decide : (b! "TFile").length < 2 ^ 31 ∧ utf8 (b! "TFile") = true),
    (by decide : (b! "a.root").length < 2 ^ 31 ∧ utf8 (b! "a.root") = true),
    (by decide : ([] : Str).length < 2 ^ 31 ∧ utf8 [] = true)⟩
  topDate := (by decide : (rootFile { infos := [] } []).topDate < 2 ^ 32)
  dir := ⟨(by decide : InI 2 5), (by decide : InI 4 144), sum_fits1 40 hn (by decide), sum_fits1 1277 hs (by decide),
    (by decide : InSeek false 0), (by decide : InSeek false 251), (by decide : (List.replicate 16 (7 : Byte)).length = 16)⟩
  ctime := (by decide : (rootFile { infos := [] } []).dir.ctime < 2 ^ 32)
  mtime := (by decide : (rootFile { infos := [] } []).dir.mtime < 2 ^ 32)
  dirRoom := (by decide : ((48 : Nat) : Int) ≤ 60)
  nBytesName := rfl
  sameName := rfl
  nameFits := sum_fits1 40 hn (by decide)
  room := by
    show (1277 : Int) + info.length + (40 + names.length) + 60 ≤ 1377 + info.length + names.length
    omega
  seekKeys := (by decide : (rootFile { infos := [] } []).dir.seekKeys = (rootFile { infos := [] } []).keyList.key.seekKey ∧ 0 < (rootFile { infos := [] } []).dir.seekKeys)
  nBytesKeys := (by decide : (rootFile { infos := [] } []).dir.nBytesKeys = (rootFile { infos := [] } []).keyList.key.nBytes)
  listed := rfl
  listPlain := rfl
  keys := (by decide : ∀ k ∈ (rootFile { infos := [] } []).keys, k.1.InRange ∧ k.2 < 2 ^ 32)
  few := (by decide : (rootFile { infos := [] } []).keys.length < 2 ^ 31)
  freeAt := (by decide : (rootFile { infos := [] } []).header.seekFree = (rootFile { infos := [] } []).free.key.seekKey ∧ 0 < (rootFile { infos := [] } []).header.seekFree)
  freeBytes := (by decide : (rootFile { infos := [] } []).header.nBytesFree = (rootFile { infos := [] } []).free.key.nBytes)
  segments := rfl
  segmentsFit := (by decide : ∀ s ∈ (rootFile { infos := [] } []).segments, InSeek s.big s.first ∧ InSeek s.big s.last)
  infoAt := ⟨rfl, (by decide : (0 : Int) < 1213), by show (1213 : Int) < 1377 + info.length + names.length; omega⟩
  infoBytes := rfl
  infoClass := rfl
  infos := hr
  infosFit := by show 64 + info.length < 2 ^ 30; omega

/-- Where the parts of the file are. -/
theorem rootImage_parts (infos : RootInfos) (info tree names : List Byte) (ht : tree.length = 718) :
    let f := rootFile infos info names
    let img := rootImage infos info tree names
    (∀ n, 100 ≤ n → ∃ rest, img.drop n = (twoBaskets.flatMap RootBasket.record ++ rest).drop (n - 100)) ∧
    f.keyList.bytes <+: img.drop 251 ∧ f.free.bytes <+: img.drop 395 ∧ (rootTreeRecord tree).bytes <+: img.drop 445 ∧
    f.info.bytes <+: img.drop 1213 ∧ rootKey f.top f.topDate ++ (f.names ++ f.dirBytes) <+: img.drop (1277 + info.length) ∧
    img.length = 1377 + info.length + names.length := by
  intro f img
  have hA : f.headerBytes.length = 63 := rfl
  have hB : (twoBaskets.flatMap RootBasket.record).length = 151 := by decide +kernel
  have hC : (rootKey f.top f.topDate ++ (f.names ++ f.dirBytes)).length = 88 + names.length := by
    have h1 : (rootKey f.top f.topDate).length = 40 := rfl
    have h2 : f.dirBytes.length = 48 := rfl
    rw [List.length_append, List.length_append, h1, h2]
    show 40 + (names.length + 48) = _
    omega
  have hD : f.keyList.bytes.length = 144 := (by decide +kernel : rootKeyList.bytes.length = 144)
  have hE : f.free.bytes.length = 50 := (by decide +kernel : rootFree.bytes.length = 50)
  have hT : (rootTreeRecord tree).bytes.length = 768 := by
    show (rootKey (rootTreeRecord []).key 2030000001 ++ tree).length = 768
    rw [List.length_append, ht]
    decide +kernel
  have hI : f.info.bytes.length = 64 + info.length := by
    show (rootKey (rootInfoRecord info).key 2030000000 ++ info).length = _
    rw [List.length_append]
    rfl
  have e : img = f.headerBytes ++ (List.replicate 37 0 ++ (twoBaskets.flatMap RootBasket.record ++ (f.keyList.bytes ++ (f.free.bytes ++
    ((rootTreeRecord tree).bytes ++ (f.info.bytes ++ ((rootKey f.top f.topDate ++ (f.names ++ f.dirBytes)) ++ List.replicate 12 0))))))) := rfl
  generalize img = img at e
  generalize f.headerBytes = A at *
  generalize twoBaskets.flatMap RootBasket.record = B at *
  generalize rootKey f.top f.topDate ++ (f.names ++ f.dirBytes) = C at *
  generalize f.keyList.bytes = D at *
  generalize f.free.bytes = E at *
  generalize (rootTreeRecord tree).bytes = T at *
  generalize f.info.bytes = I at *
  subst e
  refine ⟨fun n hn => ?_, ?_, ?_, ?_, ?_, ?_, ?_⟩
  · refine ⟨D ++ (E ++ (T ++ (I ++ (C ++ List.replicate 12 0)))), ?_⟩
    obtain ⟨m, rfl⟩ : ∃ m, n = 100 + m := ⟨n - 100, by omega⟩
    rw [← List.drop_drop, ← List.append_assoc A, show 100 = (A ++ List.replicate 37 0).length by simp [hA], List.drop_left]
    congr 1
    simp [hA]
  · rw [← List.append_assoc, ← List.append_assoc]
    exact prefix_at (by simp [hA, hB])
  · rw [← List.append_assoc, ← List.append_assoc, ← List.append_assoc]
    exact prefix_at (by simp [hA, hB, hD])
  · rw [← List.append_assoc, ← List.append_assoc, ← List.append_assoc, ← List.append_assoc]
    exact prefix_at (by simp [hA, hB, hD, hE])
  · rw [← List.append_assoc, ← List.append_assoc, ← List.append_assoc, ← List.append_assoc, ← List.append_assoc]
    exact prefix_at (by simp [hA, hB, hD, hE, hT])
  · rw [← List.append_assoc, ← List.append_assoc, ← List.append_assoc, ← List.append_assoc, ← List.append_assoc, ← List.append_assoc]
    exact prefix_at (by simp only [List.length_append, List.length_replicate, hA, hB, hD, hE, hT, hI]; omega)
  · simp only [List.length_append, List.length_replicate, hA, hB, hC, hD, hE, hT, hI]
    omega

theorem rootTreeRecord_in {infos : RootInfos} {info tree names : List Byte} (ht : tree.length = 718) (dec : Decoders) :
    (rootTreeRecord tree).In dec (rootImage infos info tree names) where
  key := (by decide : (rootTreeRecord []).key.InRange)
  date := (by decide : (rootTreeRecord []).date < 2 ^ 32)
  keyLen := (by decide +kernel : (rootTreeRecord []).key.keyLen = (rootKey (rootTreeRecord []).key 2030000001).length)
  objLen := by show (718 : Int) = tree.length; omega
  nBytes := by
    show (768 : Int) = (rootKey (rootTreeRecord []).key 2030000001 ++ tree).length
    rw [List.length_append, ht]
    decide +kernel
  seekKey := (by decide : (0 : Int) ≤ 445)
  there := (rootImage_parts infos info tree names ht).2.2.2.1
  block := fun z hz => by cases hz

theorem rootFile_in {infos : RootInfos} {info tree names : List Byte} (hs : info.length < 10000) (ht : tree.length = 718)
    (dec : Decoders) : (rootFile infos info names).In dec (rootImage infos info tree names) := by
  obtain ⟨-, p2, p3, -, p5, p1, p6⟩ := rootImage_parts infos info tree names ht
  refine ⟨List.prefix_append _ _, ?_, by omega, ?_, ?_, ?_, ?_⟩
  · show (1377 : Int) + info.length + names.length ≤ _
    omega
  · have : (rootFile infos info names).header.begin_.toNat = 1277 + info.length := by
      show (1277 + info.length : Int).toNat = _
      omega
    rw [this]
    exact p1
  · exact ⟨(by decide : rootKeyList.key.InRange), (by decide : rootKeyList.date < 2 ^ 32),
      (by decide +kernel : rootKeyList.key.keyLen = (rootKey rootKeyList.key rootKeyList.date).length),
      (by decide +kernel : rootKeyList.key.objLen = rootKeyList.payload.length),
      (by decide +kernel : rootKeyList.key.nBytes = rootKeyList.bytes.length), (by decide : 0 ≤ rootKeyList.key.seekKey), p2,
      fun z hz => by cases hz⟩
  · exact ⟨(by decide : rootFree.key.InRange), (by decide : rootFree.date < 2 ^ 32),
      (by decide +kernel : rootFree.key.keyLen = (rootKey rootFree.key rootFree.date).length),
      (by decide +kernel : rootFree.key.objLen = rootFree.payload.length),
      (by decide +kernel : rootFree.key.nBytes = rootFree.bytes.length), (by decide : 0 ≤ rootFree.key.seekKey), p3,
      fun z hz => by cases hz⟩
  · have h1 : (64 : Int) + info.length = ((64 + info.length : Nat) : Int) := by omega
    refine ⟨⟨?_, ?_, (by decide : InI 2 4), (by decide : (rootInfoRecord []).key.seekKey > kStartBigFile → (1000 : Int) ≤ 4),
      InI4_nat (by omega), (by decide : InI 2 64), (by decide : InI 2 1), (by decide : InSeek false 1213), (by decide : InSeek false 100),
      (by decide : (b! "TList").length < 2 ^ 31 ∧ utf8 (b! "TList") = true),
      (by decide : (b! "StreamerInfo").length < 2 ^ 31 ∧ utf8 (b! "StreamerInfo") = true),
      (by decide : (b! "Doubly linked list").length < 2 ^ 31 ∧ utf8 (b! "Doubly linked list") = true)⟩,
      (by decide : 2030000000 < 2 ^ 32), rfl, rfl, ?_, (by decide : (0 : Int) ≤ 1213), p5, fun z hz => by cases hz⟩
    · show (0 : Int) ≤ 64 + info.length
      omega
    · show InI 4 (64 + info.length : Int)
      rw [h1]
      exact InI4_nat (by omega)
    · show (64 : Int) + info.length = (rootKey (rootInfoRecord info).key 2030000000 ++ info).length
      rw [List.length_append, h1]
      rfl

theorem rootFile_short (infos : RootInfos) (info : List Byte) : (rootFile infos info).ShortName :=
  (by decide : (10 : Int) ≤ 48 ∧ (48 : Int) ≤ 1000)

theorem rootFile_keeps (infos : RootInfos) (info tree : List Byte) : (rootFile infos info).Keeps (rootTreeRecord tree) :=
  ⟨(by decide : ((rootTreeRecord []).key, 2030000001) ∈ rootKeys),
    (by decide : ∀ k ∈ rootKeys, k.1.name = (rootTreeRecord []).key.name → k = ((rootTreeRecord []).key, 2030000001) ∨ k.1.cycle < (rootTreeRecord []).key.cycle),
    (by decide : (59 : Byte) ∉ b! "t")⟩

theorem demoInfos_ok : demoInfos.Ok := by
  refine ⟨?_, ?_, by decide, by decide⟩
  · intro i hi
    simp only [demoInfos, List.mem_cons, List.not_mem_nil, or_false] at hi
    subst hi
    refine ⟨by decide, by decide, by decide, ?_, by decide⟩
    intro m hm
    simp only [List.mem_cons, List.not_mem_nil, or_false] at hm
    rcases hm with rfl | rfl | rfl | rfl
    · exact ⟨⟨by decide, by decide, by decide, by decide, by decide, by decide, by decide, by decide⟩, .inl (by decide), (by decide : InI 4 1)⟩
    · exact ⟨⟨by decide, by decide, by decide, by decide, by decide, by decide, by decide, by decide⟩, .inl (by decide), by decide, by decide⟩
    · exact ⟨⟨by decide, by decide, by decide, by decide, by decide, by decide, by decide, by decide⟩,
        .inr ⟨b! "n] charges", rfl, by decide, by decide⟩, by decide, by decide, by decide⟩
    · exact ⟨⟨by decide, by decide, by decide, by decide, by decide, by decide, by decide, by decide⟩, .inl (by decide),
        by decide, by decide⟩
  · intro l hl
    cases hl
    refine ⟨fun t ht => ?_, by decide⟩
    simp only [List.mem_cons, List.not_mem_nil, or_false] at ht
    rw [ht]
    exact (by decide : utf8 (b! "rule") = true ∧ (b! "rule").length < 2 ^ 30)

theorem bytes_record {s : RootInfos} {n : Nat} (h : (s.write (WBuffer.new n)).isOk = true) : s.Record n (s.bytes n) := by
  unfold RootInfos.Record RootInfos.bytes
  cases hw : s.write (WBuffer.new n) with
  | error e => rw [hw] at h; cases h
  | ok a => exact ⟨a.1, a.2, rfl, rfl⟩

theorem demoInfos_record : demoInfos.Record 64 (demoInfos.bytes 64) ∧ (demoInfos.bytes 64).length < 10000 :=
  ⟨bytes_record (by decide +kernel), by decide +kernel⟩

theorem smallTree_record : ∃ bs, smallTree.Record 50 bs ∧ bs.length = 718 := by
  obtain ⟨bs, w, h1, h2, -⟩ := C61_record smallTree smallTree_ok 50 [] 1 (by decide)
  rw [List.nil_append] at h2
  have hl := smallTree_length
  rw [h1] at hl
  have hl : w.p.length = 718 := hl
  exact ⟨bs, ⟨_, _, h1, h2⟩, by rw [← h2]; exact hl⟩

/-- The file opens, and its class, its members and its keys are there. -/
example : ∃ tree, smallTree.Record 50 tree ∧
    openFile twelveDec 3 (rootImage demoInfos (demoInfos.bytes 64) tree) =
      .ok ((rootFile demoInfos (demoInfos.bytes 64)).seen (rootImage demoInfos (demoInfos.bytes 64) tree)) := by
  obtain ⟨tree, h1, h2⟩ := smallTree_record
  obtain ⟨r1, r2⟩ := demoInfos_record
  exact ⟨tree, h1, C63_open_partial (rootFile_ok r1 r2 (by decide)) demoInfos_ok (rootFile_short _ _) (rootFile_in r2 h2 _) 3 (by decide)⟩

/-- What is seen of it. -/
example (info img : List Byte) :
    ((rootFile demoInfos info).seen img).keysName = [b! "t", b! "t"] ∧
    ((rootFile demoInfos info).seen img).spans = [{ first := 9000, last := 2000000000 }] ∧
    ((rootFile demoInfos info).seen img).sinfos.map (fun s => (s.named.name, s.clsver, s.elems.length)) = [(b! "Event", 3, 4)] :=
  ⟨(by decide : (rootKeys.map seenKey).map Key.name = _), rfl, rfl⟩

theorem numbersBranch_inFile {infos : RootInfos} {info tree : List Byte} (ht : tree.length = 718) :
    numbersBranch.Filled (((rootFile infos info).seen (rootImage infos info tree)).reader twelveDec) numberLeaf twoBaskets := by
  refine ⟨rfl, rfl, by decide, rfl, rfl, rfl, fun x hx => ?_⟩
  have h := (twoBaskets_listed []).there x hx
  have h100 : ∀ x ∈ twoBaskets, 100 ≤ x.key.seekKey.toNat := by decide
  obtain ⟨rest, hr⟩ := (rootImage_parts infos info tree _ ht).1 _ (h100 x hx)
  refine ⟨h.1, List.IsPrefix.trans h.2 ?_⟩
  show twoBasketsReader.img.drop x.key.seekKey.toNat <+: (rootImage infos info tree).drop x.key.seekKey.toNat
  rw [hr]
  obtain ⟨m, hm⟩ : ∃ m, x.key.seekKey.toNat = 100 + m := ⟨x.key.seekKey.toNat - 100, by have := h100 x hx; omega⟩
  show (List.replicate 100 0 ++ twoBaskets.flatMap RootBasket.record).drop x.key.seekKey.toNat <+: _
  have e : (List.replicate 100 0 ++ twoBaskets.flatMap RootBasket.record).drop 100 = twoBaskets.flatMap RootBasket.record :=
    List.drop_left' (by simp)
  rw [hm, ← List.drop_drop, e, Nat.add_sub_cancel_left, List.drop_append]
  exact List.prefix_append _ _

/-- From the bytes of the file to the numbers. -/
example : ∃ img file td branches x, openFile twelveDec 4 img = .ok file ∧ file.getTree twelveDec 4 (b! "t") = .ok (td, branches, none) ∧
    x ∈ branchesR branches ∧ x.name = b! "x" ∧ x.data.entries = 5 ∧
    x.getBasket (file.reader twelveDec) Ty.i32.unmarshal = .ok [(1 : Int), -2, 3, 4, 5] := by
  obtain ⟨tree, h1, h2⟩ := smallTree_record
  obtain ⟨r1, r2⟩ := demoInfos_record
  exact ⟨_, C63_entries (ty := .i32) (rootFile demoInfos (demoInfos.bytes 64)) twelveDec (rootImage demoInfos (demoInfos.bytes 64) tree)
    (rootFile_ok r1 r2 (by decide)) demoInfos_ok (rootFile_short _ _) (rootFile_in r2 h2 _) (rootTreeRecord tree) (rootFile_keeps _ _ _)
    (rootTreeRecord_in h2 _) rfl smallTree smallTree_ok h1 (by show 50 + tree.length < 2 ^ 30; omega) 4 (by decide) numbersBranch
    (by
      show numbersBranch ∈ RootBranch.listAll [numbersBranch]
      rw [RootBranch.listAll, numbersBranch, RootBranch.listing]
      simp)
    numberLeaf twoBaskets (numbersBranch_inFile h2) [[(1 : Int), -2], [3, 4, 5]] twoBaskets_hold twoBaskets_table (by decide)⟩

/-- The same file with a name that takes a thousand bytes does not open. -/
example : ∃ tree names, smallTree.Record 50 tree ∧ names.length = 1000 ∧
    openFile twelveDec 3 (rootImage demoInfos (demoInfos.bytes 64) tree names) = .error (.err .cantReadDirectoryInfo) := by
  obtain ⟨tree, h1, h2⟩ := smallTree_record
  obtain ⟨r1, r2⟩ := demoInfos_record
  have hn : (List.replicate 1000 (65 : Byte)).length = 1000 := List.length_replicate
  exact ⟨tree, List.replicate 1000 65, h1, hn, C63_long_name_false (rootFile_ok r1 r2 (by omega)) (rootFile_in r2 h2 _)
    (by show (1000 : Int) < 40 + (List.replicate 1000 (65 : Byte)).length; omega) 3⟩

/-- What reading a list of classes behind a key of 64 bytes ends with. -/
def classesFault (s : RootInfos) : Option Fault :=
  match readWith (TList.unmarshal (readAny 4)) (s.bytes 64) 64 with
  | .ok _ => none
  | .error e => some e

theorem classesFail {s : RootInfos} {e : Fault} (h : classesFault s = some e) (hok : (s.write (WBuffer.new 64)).isOk = true)
    (hs : (s.bytes 64).length < 10000) (dec : Decoders) (tree : List Byte) (ht : tree.length = 718) :
    (rootFile s (s.bytes 64)).Ok ∧ (rootFile s (s.bytes 64)).ShortName ∧
    (rootFile s (s.bytes 64)).In dec (rootImage s (s.bytes 64) tree) ∧
    openFile dec 4 (rootImage s (s.bytes 64) tree) = .error e := by
  refine ⟨rootFile_ok (bytes_record hok) hs (by decide), rootFile_short _ _, rootFile_in hs ht dec,
    (rootFile_in hs ht dec).classesFail (rootFile_ok (bytes_record hok) hs (by decide)) (rootFile_short _ _) 4 e ?_⟩
  show readWith (TList.unmarshal (readAny 4)) (s.bytes 64) 64 = .error e
  unfold classesFault at h
  cases hx : readWith (TList.unmarshal (readAny 4)) (s.bytes 64) 64 with
  | ok a => rw [hx] at h; cases h
  | error x => rw [hx] at h; cases h; rfl

/-- C63 is false of files in which a class has a member with a unit in brackets in its remark, such as
`energy [MeV]`: everything fits in its field, yet opening such a file aborts, whatever is in it. -/
theorem C63_remark_false : (∀ i ∈ unitInfos.infos, ∀ m ∈ i.members, m.Fits) ∧
    ∀ dec tree, tree.length = 718 →
      (rootFile unitInfos (unitInfos.bytes 64)).Ok ∧ (rootFile unitInfos (unitInfos.bytes 64)).ShortName ∧
      (rootFile unitInfos (unitInfos.bytes 64)).In dec (rootImage unitInfos (unitInfos.bytes 64) tree) ∧
      openFile dec 4 (rootImage unitInfos (unitInfos.bytes 64) tree) = .error .panic := by
  refine ⟨?_, classesFail (by decide +kernel) (by decide +kernel) (by decide +kernel)⟩
  intro i hi m hm
  simp only [unitInfos, List.mem_cons, List.not_mem_nil, or_false] at hi
  subst hi
  simp only [List.mem_cons, List.not_mem_nil, or_false] at hm
  subst hm
  exact ⟨by decide, by decide, by decide, by decide, by decide, by decide, by decide, by decide⟩

/-- C63 is false of files in which a class has a pointer to an object that is not a `TObject`: the reader has not
been told of the class that describes such members, and refuses the file. -/
theorem C63_pointer_false : (∀ i ∈ pointerInfos.infos, ∀ m ∈ i.members, m.Fits) ∧
    ∀ dec tree, tree.length = 718 →
      (rootFile pointerInfos (pointerInfos.bytes 64)).Ok ∧ (rootFile pointerInfos (pointerInfos.bytes 64)).ShortName ∧
      (rootFile pointerInfos (pointerInfos.bytes 64)).In dec (rootImage pointerInfos (pointerInfos.bytes 64) tree) ∧
      openFile dec 4 (rootImage pointerInfos (pointerInfos.bytes 64) tree) = .error (.err .classNotRegistered) := by
  refine ⟨?_, classesFail (by decide +kernel) (by decide +kernel) (by decide +kernel)⟩
  intro i hi m hm
  simp only [pointerInfos, List.mem_cons, List.not_mem_nil, or_false] at hi
  subst hi
  simp only [List.mem_cons, List.not_mem_nil, or_false] at hm
  subst hm
  exact ⟨by decide, by decide, by decide, by decide, by decide, by decide, by decide, by decide⟩

end Verif
