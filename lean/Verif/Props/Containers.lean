import Verif.Lemmas.SetMap
/-
C51 and C52: entries read as sets, maps and arrays of varying size.
-/
namespace Verif

/-- A file with one basket of these entries, at 100. -/
def demoBasketFile (es : List (List Byte)) : List Byte :=
  let k := bkl (b! "x") (b! "t")
  let pay := basketPayload true k es
  let key : Key := { nBytes := k + pay.length, objLen := pay.length, keyLen := k, seekPdir := 100,
                     cls := b! "TBasket", name := b! "x", title := b! "t" }
  let bk : Basket := { key := key, nevBuf := es.length, last := k + es.flatten.length, nevSize := 1000, bufSize := 32000 }
  List.replicate 100 0 ++ ((key.enc packedNow ++ bk.tail) ++ pay)

/-- A reader of it. -/
def demoBasketReader (es : List (List Byte)) : Reader :=
  ⟨⟨fun _ => none, fun _ => none, fun _ => none⟩, demoBasketFile es, []⟩

/-- A branch with that basket. -/
def demoBasketBranch (es : List (List Byte)) (leaf : Leaf) : BranchData :=
  { named := { name := b! "x" }, entries := es.length, leaves := [leaf],
    basketBytes := [(demoBasketFile es).length - 100], basketSeek := [100] }

theorem demoBasket_keeps {es : List (List Byte)} {leaf : Leaf} {L : Slot → Prop}
    (h : ((Slot.mk 100 ((demoBasketFile es).length - 100) leaf.tleaf.etype leaf).read (demoBasketReader es)).toOption.map
        Prod.snd = some (.unTrust es.length es.flatten (bounds 0 es)) ∧ 100 < (demoBasketFile es).length)
    (hl : L (Slot.mk 100 ((demoBasketFile es).length - 100) leaf.tleaf.etype leaf)) :
    Keeps (demoBasketReader es) (demoBasketBranch es leaf) L [es] := by
  refine ⟨rfl, [Slot.mk 100 ((demoBasketFile es).length - 100) leaf.tleaf.etype leaf], ?_, ?_⟩
  · unfold BranchData.slots demoBasketBranch
    have : (0 : Int) < (demoBasketFile es).length - 100 := by omega
    simpa [bind, Except.bind, pure, Except.pure] using this
  · refine Alike.cons ⟨hl, ?_⟩ Alike.nil
    generalize Slot.read _ _ = x at h
    cases x with
    | error e => cases h.1
    | ok p =>
      obtain ⟨b, d⟩ := p
      have : d = _ := Option.some.inj h.1
      subst this
      exact ⟨b, _, rfl⟩

/-! ### C51 -/

/-- C51, the size of the header: six bytes before a set, twelve before a map, for a branch that has
only the name of the class. -/
theorem C51_headers (x : Str) : headerBytesFromType (-1) none (b! "set<" ++ x) = .ok 6 ∧
    headerBytesFromType (-1) none (b! "map<" ++ x) = .ok 12 := ⟨rfl, rfl⟩

/-- C51, sets: when every entry of the branch has a header of the announced size, a number of items and
that many items, reading the branch as sets gives, for each entry and in order, the set of its items. -/
theorem C51_set {t : Ty} [DecidableEq t.Val] (r : Reader) (b : Branch) (e : BranchElem)
    (hb : b.branches = []) (he : b.elem = some e) (h : Nat) (hh : e.header r b.data.named.name = .ok (h : Int))
    (groups : List (List (List Byte × List t.Val)))
    (hk : Keeps r b.data Slot.isObject (groups.map fun g => g.map fun p => p.1 ++ countedBytes t p.2))
    (hok : ∀ g ∈ groups, ∀ p ∈ g, IsHeader p.1 ∧ p.1.length = h ∧ p.2.length < 2 ^ 31 ∧ ∀ v ∈ p.2, t.Ok v) :
    ∃ sets, b.getBasket r (Rd.set t.unmarshal) = .ok sets ∧ Alike SetOf sets (groups.flatten.map Prod.snd) := by
  have := getBasket_objects (func := Rd.set t.unmarshal) (R := fun (s : List t.Val) p => SetOf s p.2) hb he hh hk ?_
  · obtain ⟨zs, e1, e2⟩ := this
    exact ⟨zs, e1, e2.map_right⟩
  · intro g hg p hp
    obtain ⟨h1, h2, h3, h4⟩ := hok g hg p hp
    refine ⟨p.2.foldl setInsert [], ?_, ?_⟩
    · have := readWith_skip (rest := []) (set_reads h1 h3 h4)
      rw [List.append_nil, h2] at this
      exact this
    · have := foldl_set p.2 [] List.nodup_nil
      exact ⟨this.1, fun x => by rw [this.2]; simp⟩

/-- Two sets of numbers, one of them listed with a repetition. -/
def demoSets : List (List Byte × List Ty.i32.Val) :=
  [([64, 0, 0, 18, 0, 9], [(7 : Int), -1, 7]), ([64, 0, 0, 6, 0, 9], [])]

/-- Their bytes. -/
def demoSetBytes : List (List Byte) := demoSets.map fun p => p.1 ++ countedBytes .i32 p.2

/-- Their branch. -/
def demoSetBranch : Branch :=
  .mk (demoBasketBranch demoSetBytes (.element 1 {} 0 (-1))) (some { className := b! "set<int>", stype := -1 }) []

example : Keeps (demoBasketReader demoSetBytes) demoSetBranch.data Slot.isObject
      ([demoSets].map fun g => g.map fun p => p.1 ++ countedBytes .i32 p.2) ∧
    BranchElem.header (demoBasketReader demoSetBytes) { className := b! "set<int>", stype := -1 } (b! "x") = .ok ((6 : Nat) : Int) ∧
    (∀ p ∈ demoSets, IsHeader p.1 ∧ p.1.length = 6 ∧ p.2.length < 2 ^ 31 ∧ ∀ v ∈ p.2, Ty.i32.Ok v) := by
  refine ⟨demoBasket_keeps (by decide +kernel) ⟨_, _, _, _, rfl⟩, rfl, ?_⟩
  intro p hp
  simp only [demoSets, List.mem_cons, List.not_mem_nil, or_false] at hp
  rcases hp with rfl | rfl
  · exact ⟨⟨by decide, rfl⟩, rfl, by decide, by decide⟩
  · exact ⟨⟨by decide, rfl⟩, rfl, by decide, by decide⟩

/-- C51, maps: when every entry of the branch has a header of the announced size and a map as ROOT lays
it out (a number, all the keys, all the values, texts and vectors behind a six byte header), reading the
branch as maps gives, for each entry and in order, the map from its keys to the last of their values. -/
theorem C51_map {k v : Ty} [DecidableEq k.Val] (hkt : k.isMember = true) (hvt : v.isMember = true)
    (r : Reader) (b : Branch) (e : BranchElem)
    (hb : b.branches = []) (he : b.elem = some e) (h : Nat) (hh : e.header r b.data.named.name = .ok (h : Int))
    (groups : List (List (List Byte × MapLayout k v)))
    (hk : Keeps r b.data Slot.isObject (groups.map fun g => g.map fun p => p.1 ++ p.2.bytes))
    (hok : ∀ g ∈ groups, ∀ p ∈ g, IsHeader p.1 ∧ p.1.length = h ∧ p.2.Ok) :
    ∃ maps, b.getBasket r (Rd.map k.unmarshal v.unmarshal) = .ok maps ∧
      Alike MapOf maps (groups.flatten.map fun p => p.2.pairs) := by
  have := getBasket_objects (func := Rd.map k.unmarshal v.unmarshal)
    (R := fun (s : List (k.Val × v.Val)) p => MapOf s p.2.pairs) hb he hh hk ?_
  · obtain ⟨zs, e1, e2⟩ := this
    exact ⟨zs, e1, e2.map_right⟩
  · intro g hg p hp
    obtain ⟨h1, h2, h3⟩ := hok g hg p hp
    refine ⟨p.2.pairs.foldl mapInsert [], ?_, ?_⟩
    · have := map_reads hkt hvt h1 h3
      rw [h2] at this
      exact this
    · have := foldl_map p.2.pairs [] List.nodup_nil
      refine ⟨this.1, fun a => ?_⟩
      rw [this.2]
      cases lastValue p.2.pairs a <;> rfl

/-- C51, a negative number of items aborts. -/
theorem C51_negative {t : Ty} [DecidableEq t.Val] (n : Int) (hn : InI 4 n) (h : n < 0) (rest : List Byte) :
    readWith (Rd.set t.unmarshal) (encI 4 n ++ rest) = .error .panic := by
  have h1 : Rd.doSkipHeader { p := encI 4 n ++ rest, c := 0, offset := 0, refs := [], skip := none } =
      .ok ((), { p := encI 4 n ++ rest, c := 0, offset := 0, refs := [], skip := none }) := rfl
  have h2 : Rd.i32 { p := encI 4 n ++ rest, c := 0, offset := 0, refs := [], skip := none } = .ok (n, _) :=
    Reads.sint (k := 4) (by decide) hn _ rfl (Nat.zero_le _) ⟨rest, rfl⟩
  unfold readWith Rd.set
  rw [Rd.bind_ok h1, Rd.bind_ok h2, if_pos h]
  rfl

example : InI 4 (-2) := by decide

/-- A map from texts to numbers, `a` to 1, `b` to 2, `a` to 3. -/
def demoMap : List Byte × MapLayout .string .i32 :=
  ([64, 0, 0, 40, 0, 9, 0, 0, 0, 0, 0, 0],
    ⟨[64, 0, 0, 8, 0, 9], [], [(b! "a", (1 : Int)), (b! "b", (2 : Int)), (b! "a", (3 : Int))], []⟩)

/-- Its bytes. -/
def demoMapBytes : List (List Byte) := [demoMap.1 ++ demoMap.2.bytes]

/-- Its branch. -/
def demoMapBranch : Branch :=
  .mk (demoBasketBranch demoMapBytes (.element 1 {} 0 (-1))) (some { className := b! "map<string,int>", stype := -1 }) []

example : Ty.isMember .string = true ∧ Ty.isMember .i32 = true ∧
    Keeps (demoBasketReader demoMapBytes) demoMapBranch.data Slot.isObject
      ([[demoMap]].map fun g => g.map fun p => p.1 ++ p.2.bytes) ∧
    BranchElem.header (demoBasketReader demoMapBytes) { className := b! "map<string,int>", stype := -1 } (b! "x") =
      .ok ((12 : Nat) : Int) ∧
    IsHeader demoMap.1 ∧ demoMap.1.length = 12 ∧ demoMap.2.Ok ∧
    lastValue demoMap.2.pairs (b! "a") = some (3 : Int) := by
  refine ⟨rfl, rfl, demoBasket_keeps (by decide +kernel) ⟨_, _, _, _, rfl⟩, rfl, ⟨by decide, rfl⟩, rfl, ?_, rfl⟩
  exact ⟨by decide, by decide, fun _ => ⟨rfl, rfl⟩, fun _ => rfl⟩

/-! ### C52 -/

/-- C52, what does hold: when the entries of a branch of numbers are arrays of varying size, and in no
basket the numbers are as many as the branch has entries, reading the branch as arrays gives every entry
with its items, in order.  Missing: the baskets in which the numbers happen to be as many as the entries
of the branch, for which it is false (below). -/
theorem C52_slice_partial {t : Ty} (r : Reader) (b : Branch) (hb : b.branches = []) (he : b.elem = none)
    (n : Nat) (hn : 0 < n) (groups : List (List (List t.Val)))
    (hk : Keeps r b.data (Slot.isNumber n) (groups.map fun g => g.map fun l : List t.Val => l.flatMap (marshalled t)))
    (hok : ∀ g ∈ groups, ∀ l ∈ g, ∀ v ∈ l, t.Ok v ∧ marshalled t v ≠ [])
    (hne : ∀ g ∈ groups, (((g.flatMap fun l => l.flatMap (marshalled t)).length / n : Nat) : Int) ≠ b.data.entries) :
    b.getBasket r (Rd.slice t.unmarshal) = .ok groups.flatten := by
  obtain ⟨ss, h1, h2⟩ := hk.table
  have := getBasket_groups (func := Rd.slice t.unmarshal) (R := Eq) hb (ss := ss) (r := r) (groups := groups) (mk := fun s => do
      let (bk, bd) ← s.read r
      bd.chunk b.data.entries s.leaf (s.leaf.sized s.size bk.nevSize)) ?_ h2.of_map_right ?_
  · obtain ⟨zs, e1, e2⟩ := this
    rw [e1]
    congr 1
    exact List.ext_getElem? fun i => by
      cases ha : zs[i]? with
      | none =>
        rw [List.getElem?_eq_none_iff, e2.1] at ha
        rw [List.getElem?_eq_none_iff.2 ha]
      | some a =>
        have hi : i < groups.flatten.length := by
          rw [← e2.1]
          exact (List.getElem?_eq_some_iff.1 ha).1
        rw [List.getElem?_eq_getElem hi, e2.2 i a _ ha (List.getElem?_eq_getElem hi)]
  · unfold Branch.chunks
    rw [he]
    simp only [BranchData.chunks, h1, hk.outside, embeddedBase, bind, Except.bind, List.nil_append]
    rfl
  · rintro s g hg ⟨⟨hs, k, a, b', c, d, hkC, hl⟩, bk, m, hrd⟩
    obtain ⟨zs, e1, e2⟩ := collect_alike
      (g := fun buf => (readWith (do Rd.setSkip (some 0); Rd.slice t.unmarshal) buf).unwrap)
      (R := Eq) (xs := g.map fun l : List t.Val => l.flatMap (marshalled t)) (ys := g) (alike_map fun l hlg =>
        ⟨l, by rw [slice_reads (t := t) (hok g hg l hlg)]; rfl, rfl⟩)
    refine ⟨.irregular m (g.map fun l : List t.Val => l.flatMap (marshalled t)) 0, zs, ?_, e1, e2⟩
    have hsz : s.leaf.sized s.size bk.nevSize = (n : Int) := by
      rw [hl, hs]
      unfold Leaf.sized
      cases k <;> first | rfl | exact absurd rfl hkC
    have hcnt : ∀ buf : List Byte, countOf buf (n : Int) = .ok (buf.length / n) := by
      intro buf
      unfold countOf
      rw [if_neg (by omega), if_neg (by omega)]
      rfl
    have hfl : (g.map fun l : List t.Val => l.flatMap (marshalled t)).flatten = g.flatMap fun l => l.flatMap (marshalled t) := rfl
    have hch : BasketData.chunk b.data.entries s.leaf (n : Int)
        (.unTrust m (g.map fun l : List t.Val => l.flatMap (marshalled t)).flatten (bounds 0 (g.map fun l : List t.Val => l.flatMap (marshalled t)))) =
        .ok (.irregular m (g.map fun l : List t.Val => l.flatMap (marshalled t)) 0) := by
      unfold BasketData.chunk
      rw [hl]
      have := hne g hg
      cases k <;> first
        | exact absurd rfl hkC
        | (simp only [hcnt, bind, Except.bind]; rw [if_neg (by rw [hfl]; exact this), slices_bounds]; rfl)
    simp only [hrd, bind, Except.bind, hsz, hch]

/-- Three arrays of two, no and four numbers. -/
def demoArrays : List (List Ty.i32.Val) := [[(1 : Int), -2], [], [3, 4, 5, 6]]

/-- Three arrays with three numbers in all. -/
def demoEven : List (List Ty.i32.Val) := [[], [(1 : Int), 2], [3]]

/-- The leaf of a branch of arrays of 32-bit numbers. -/
def demoArrayLeaf : Leaf := .var .I 1 { named := { name := b! "x", title := b! "x[n]" }, len := 1, etype := 4, count := true } 0 0

/-- Their branch. -/
def demoArrayBranch (ls : List (List Ty.i32.Val)) : Branch :=
  .mk (demoBasketBranch (ls.map fun l => l.flatMap (marshalled .i32)) demoArrayLeaf) none []

/-- A reader of it. -/
def demoArrayReader (ls : List (List Ty.i32.Val)) : Reader :=
  demoBasketReader (ls.map fun l => l.flatMap (marshalled .i32))

theorem demoArray_number (n : Int) : Slot.isNumber 4 (Slot.mk 100 n demoArrayLeaf.tleaf.etype demoArrayLeaf) :=
  ⟨rfl, .I, _, _, _, _, by decide, rfl⟩

example : Keeps (demoArrayReader demoArrays) (demoArrayBranch demoArrays).data (Slot.isNumber 4)
      ([demoArrays].map fun g => g.map fun l => l.flatMap (marshalled .i32)) ∧
    (∀ l ∈ demoArrays, ∀ v ∈ l, Ty.i32.Ok v ∧ marshalled .i32 v ≠ []) ∧
    (((demoArrays.flatMap fun l => l.flatMap (marshalled .i32)).length / 4 : Nat) : Int) ≠
      (demoArrayBranch demoArrays).data.entries :=
  ⟨demoBasket_keeps (by decide +kernel) (demoArray_number _), by decide, by decide⟩

/-- C52 is false as stated: three entries of no, two and one number are kept, with the table of where
each begins; as there are three numbers, the branch is read as if each entry had one, and the first entry
gets them all. -/
theorem C52_false :
    Keeps (demoArrayReader demoEven) (demoArrayBranch demoEven).data (Slot.isNumber 4)
      ([demoEven].map fun g => g.map fun l => l.flatMap (marshalled .i32)) ∧
    demoEven = [[], [(1 : Int), 2], [3]] ∧
    (demoArrayBranch demoEven).getBasket (demoArrayReader demoEven) (Rd.slice Ty.i32.unmarshal) =
      .ok [[(1 : Int), 2, 3], [], []] :=
  ⟨demoBasket_keeps (by decide +kernel) (demoArray_number _), rfl, by
    have : Except.toOption (((demoArrayBranch demoEven).getBasket (demoArrayReader demoEven) (Rd.slice Ty.i32.unmarshal) :
        Res (List (List Int)))) = some [[(1 : Int), 2, 3], [], []] := by decide +kernel
    generalize Branch.getBasket _ _ _ = x at this ⊢
    cases x with
    | error e => cases this
    | ok l => exact congrArg Except.ok (Option.some.inj this)⟩

/-- C52, an entry that ends within a number aborts, it does not give fewer numbers. -/
theorem C52_cut (k : Nat) (hk : 0 < k) (buf : List Byte) (h : buf.length % k ≠ 0) :
    readWith (do Rd.setSkip (some 0); Rd.slice (Rd.uint k)) buf = .error .panic ∧
    readWith (do Rd.setSkip (some 0); Rd.slice (Rd.sint k)) buf = .error .panic :=
  ⟨slice_cut (m := Rd.uint k) hk (takes_uint k) h, slice_cut (m := Rd.sint k) hk (takes_sint k) h⟩

/-- Seven bytes for numbers of four. -/
example : ([0, 0, 0, 1, 0, 0, 0] : List Byte).length % 4 ≠ 0 := by decide

/-- C52, arrays of a given size: that many items are taken, whatever follows. -/
theorem C52_sized {t : Ty} (l : List t.Val) (hv : ∀ v ∈ l, t.Ok v) (rest : List Byte) :
    readWith (Rd.sizedSlice l.length t.unmarshal) (l.flatMap (marshalled t) ++ rest) = .ok l := by
  rw [flatMap_congr' fun v hv' => marshalled_eq (hv v hv')]
  refine readWith_reads (Reads.times fun v hv' r h1 h2 h3 => ?_) rfl
  rw [t.reads_unmarshal v (hv v hv') r h1 h2 h3]

example : ∀ v ∈ [(b! "a"), (b! "bc")], Ty.string.Ok v := by decide

end Verif
