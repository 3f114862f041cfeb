import Verif.Lemmas.RootTrees
import Verif.Props.RootBaskets
import Verif.Props.BranchLookup
import Verif.Props.Storage
import Verif.Props.UserInfo
/-
C61: trees that ROOT wrote.
-/
namespace Verif

/-- C61, the record: whatever its version, with branches inside branches to any depth, every field of the
tree, of its branches and of their leaves is read as it was written, if the record ends below position 2^30
and the stack is as deep as the branches. -/
theorem C61_record (t : RootTree) (h : t.Ok) (off : Nat) (pre : List Byte) (fuel : Nat)
    (hf : RootBranch.depthAll t.branches ≤ fuel) :
    RoundTripAt off pre t.write (TreeData.unmarshal (readAny (fuel + 2))) (t.seen, RootBranch.seenAll t.branches, none) :=
  (RootTree.emit h hf).roundTripAt (by simp)

theorem Place.Holds.load {p : Place} {dec : Decoders} {f : FileR} {name : Str} {bs : List Byte} (h : p.Holds dec f name bs) :
    p.key.load dec f.img = .ok bs := by
  have h1 := h.seekKey
  have h2 := h.keyLen
  have h3 := h.objLen
  have h9 := h.widths
  unfold InI at h9
  rw [show ((256 ^ 4 : Nat) : Int) = 2 ^ 32 from rfl, show ((256 ^ 8 : Nat) : Int) = 2 ^ 64 from rfl] at h9
  have hsane : p.key.Sane := by
    refine ⟨h1, by omega, h2, ?_, by omega⟩
    cases hb : p.block with
    | none => have := (h.plain hb).1; omega
    | some z => have := (h.packed z hb).2.2.2.1; omega
  rw [Key.load_sane hsane]
  unfold Key.isCompressed
  cases hb : p.block with
  | none =>
    obtain ⟨h4, h5⟩ := h.plain hb
    rw [if_neg (by simp; omega)]
    exact readAt_stored (by omega) h3 h5
  | some z =>
    obtain ⟨h4, h5, h6, h7, h8⟩ := h.packed z hb
    rw [if_pos (by simp; omega), if_neg (by omega), readAt_stored (by omega) (by omega) h8]
    have := C34_single_partial h4
    rw [h5] at this
    simp only [h3, Int.toNat_natCast]
    exact this

/-- C61, the file: the tree is found by its name, its record compressed or not. -/
theorem C61_file (t : RootTree) (dec : Decoders) (f : FileR) (name : Str) (h : t.In dec f name) (fuel : Nat)
    (hf : RootBranch.depthAll t.branches + 2 ≤ fuel) :
    f.getTree dec fuel name = .ok (t.seen, RootBranch.seenAll t.branches, none) := by
  obtain ⟨fuel, rfl⟩ : ∃ n, fuel = n + 2 := ⟨fuel - 2, by omega⟩
  obtain ⟨p, bs, hp, ⟨n, w, hw, hwp⟩, hcls, hsmall⟩ := h.stored
  obtain ⟨bs', w', e1, e2, -, e3⟩ := C61_record t h.ok p.key.keyLen.toNat [] fuel (by omega)
  rw [e1] at hw
  cases hw
  rw [List.nil_append] at e2 e3
  rw [hwp] at e2
  subst e2
  obtain ⟨r', hr', -⟩ := e3 hsmall []
  rw [List.append_nil, List.length_nil] at hr'
  have hobj : f.getObject dec (fuel + 2) name = .ok (.tree t.seen (RootBranch.seenAll t.branches) none) := by
    unfold FileR.getObject
    rw [Res.bind_ok hp.key]
    unfold Key.object
    rw [Res.bind_ok hp.load, hcls]
    show readWith (do
      let t ← TreeData.unmarshal (readAny (fuel + 2))
      pure (Obj.tree t.1 t.2.1 t.2.2)) _ _ = _
    refine readWith_of (r := r') ?_
    rw [Rd.bind_ok hr']
    rfl
  unfold FileR.getTree
  rw [Res.bind_ok hobj]

/-- C61, the branches: the listing of the tree has them all, and one whose name no other has is found by
it, at any depth. -/
theorem C61_branches (t : RootTree) : branchesR (RootBranch.seenAll t.branches) = (RootBranch.listAll t.branches).map RootBranch.seen ∧
    ∀ b ∈ RootBranch.listAll t.branches,
      (∀ c ∈ RootBranch.listAll t.branches, c.seen.name = b.seen.name → c = b) →
      lookupBranch (RootBranch.seenAll t.branches) b.seen.name = some b.seen := by
  have hall := RootBranch.branchesR_seenAll t.branches
  refine ⟨hall, fun b hb hu => ?_⟩
  rw [lookupBranch_eq, hall]
  cases hfind : ((RootBranch.listAll t.branches).map RootBranch.seen).find? (fun x => x.name = b.seen.name) with
  | none =>
    have := List.find?_eq_none.1 hfind b.seen (List.mem_map_of_mem hb)
    simp at this
  | some x =>
    have hx := List.mem_of_find?_eq_some hfind
    have hn := List.find?_some hfind
    obtain ⟨c, hc, rfl⟩ := List.mem_map.1 hx
    rw [hu c hc (by simpa using hn)]

theorem RootBranch.Filled.lists {b : RootBranch} {r : Reader} {l : Leaf} {bs : List RootBasket} (h : b.Filled r l bs) :
    b.seen.branches = [] ∧ b.seen.data.baskets = [] ∧ Lists r b.seen.data l bs ∧
      b.seen.elem = b.shape.elem.map RootElement.elem := by
  obtain ⟨s, sub⟩ := b
  obtain rfl : sub = [] := h.sub
  rw [RootBranch.seen, RootBranch.seenAll]
  refine ⟨rfl, ?_, ⟨h.leaf, ?_, ?_, h.there⟩, rfl⟩
  · show s.kept.filterMap _ = []
    rw [List.filterMap_eq_nil_iff]
    intro k hk
    rw [h.kept k hk]
    rfl
  · show s.data.basketSeek.take s.data.writeBasket.toNat = _
    have := h.seek
    rw [show s.data.writeBasket = bs.length from h.count, Int.toNat_natCast]
    exact this
  · show s.data.basketBytes.take s.data.writeBasket.toNat = _
    have := h.bytes
    rw [show s.data.writeBasket = bs.length from h.count, Int.toNat_natCast]
    exact this

/-- C61, the entries: from the file to the values.  The tree is found, the branch is among its branches, at
any depth, and its entries are the values in its baskets, in order; for numbers, arrays of fixed size and
texts. -/
theorem C61_entries {ty : Ty} (t : RootTree) (dec : Decoders) (f : FileR) (name : Str) (h : t.In dec f name) (fuel : Nat)
    (hf : RootBranch.depthAll t.branches + 2 ≤ fuel) (b : RootBranch) (hb : b ∈ RootBranch.listAll t.branches)
    (l : Leaf) (bs : List RootBasket) (hbs : b.Filled (f.reader dec) l bs) (groups : List (List ty.Val))
    (hold : Hold bs (marshalled ty) groups) (htab : ∀ x ∈ bs, x.table = true → l.isText)
    (hok : ∀ g ∈ groups, ∀ v ∈ g, ty.Ok v) :
    ∃ td branches x, f.getTree dec fuel name = .ok (td, branches, none) ∧ x ∈ branchesR branches ∧
      x.name = b.shape.data.named.name ∧ x.data.entries = b.shape.data.entries ∧
      x.getBasket (f.reader dec) ty.unmarshal = .ok groups.flatten := by
  obtain ⟨h1, h2, h3, -⟩ := hbs.lists
  refine ⟨_, _, b.seen, C61_file t dec f name h fuel hf, ?_, ?_, ?_,
    C60_plain (f.reader dec) b.seen h1 h2 l bs h3 groups hold htab hok⟩
  · rw [(C61_branches t).1]
    exact List.mem_map_of_mem hb
  · obtain ⟨s, sub⟩ := b; rw [RootBranch.seen]; rfl
  · obtain ⟨s, sub⟩ := b; rw [RootBranch.seen]; rfl

/-- C61, the entries, for vectors; the header in front of them is the one that the class of the branch
makes the reader expect. -/
theorem C61_vectors {ty : Ty} (t : RootTree) (dec : Decoders) (f : FileR) (name : Str) (h : t.In dec f name) (fuel : Nat)
    (hf : RootBranch.depthAll t.branches + 2 ≤ fuel) (b : RootBranch) (hb : b ∈ RootBranch.listAll t.branches)
    (e : RootElement) (he : b.shape.elem = some e) (n : Nat)
    (hn : e.elem.header (f.reader dec) b.shape.data.named.name = .ok (n : Int))
    (l : Leaf) (hl : ∃ a b c d, l = .element a b c d) (bs : List RootBasket) (hbs : b.Filled (f.reader dec) l bs)
    (htab : ∀ x ∈ bs, x.table = true) (groups : List (List (List Byte × List ty.Val)))
    (hold : Hold bs (fun p => p.1 ++ countedBytes ty p.2) groups)
    (hok : ∀ g ∈ groups, ∀ p ∈ g, IsHeader p.1 ∧ p.1.length = n ∧ p.2.length < 2 ^ 31 ∧ ∀ v ∈ p.2, ty.Ok v) :
    ∃ td branches x, f.getTree dec fuel name = .ok (td, branches, none) ∧ x ∈ branchesR branches ∧
      x.name = b.shape.data.named.name ∧ x.data.entries = b.shape.data.entries ∧
      x.getBasket (f.reader dec) (Ty.vec ty).unmarshal = .ok (groups.flatten.map Prod.snd) := by
  obtain ⟨h1, h2, h3, h4⟩ := hbs.lists
  have hname : b.seen.data.named.name = b.shape.data.named.name := by
    obtain ⟨s, sub⟩ := b; rw [RootBranch.seen]; rfl
  refine ⟨_, _, b.seen, C61_file t dec f name h fuel hf, ?_, hname, ?_,
    C60_vectors (f.reader dec) b.seen h1 h2 e.elem (by rw [h4, he]; rfl) n (by rw [hname]; exact hn) l hl bs h3 htab groups
      hold hok⟩
  · rw [(C61_branches t).1]
    exact List.mem_map_of_mem hb
  · obtain ⟨s, sub⟩ := b; rw [RootBranch.seen]; rfl

/-! ### Cases -/

/-- A branch with the two baskets of `twoBaskets`, in ten slots. -/
def numbersBranch : RootBranch :=
  .mk { addr := 1, vers := 12, leaves := [{ addr := 2, leaf := numberLeaf }], kept := [none, none],
        data := { named := { name := b! "x" }, entries := 5, writeBasket := 2, maxBaskets := 10, firstEntry := 0, iobits := 7,
                  basketBytes := [65, 86, 0, 0, 0, 0, 0, 0, 0, 0], basketSeek := [100, 165, 0, 0, 0, 0, 0, 0, 0, 0],
                  basketEntry := [0, 2, 5, 0, 0, 0, 0, 0, 0, 0] } } []

/-- A branch with one inside, which has a basket that was being filled. -/
def splitBranch : RootBranch :=
  .mk { addr := 3, leaves := [{ addr := 4, leaf := .element 1 { named := { name := b! "ev" }, len := 1 } (-1) (-1) }],
        data := { named := { name := b! "ev" }, entries := 2, maxBaskets := 1, basketBytes := [0], basketSeek := [0],
                  basketEntry := [0] },
        elem := some { vers := 9, elem := { className := b! "Event", clsver := -3, id := -1 } } }
    [.mk { addr := 5, leaves := [{ addr := 6, leaf := .element 1 { named := { name := b! "v" }, len := 1 } 0 (-1), counter := some 700 }],
           kept := [some (7, keptVectors)],
           data := { named := { name := b! "v" }, entries := 2, maxBaskets := 1, basketBytes := [0], basketSeek := [0],
                     basketEntry := [0] },
           elem := some { elem := { className := b! "vector<int>", stype := -1 }, counter := some 500 } } []]

/-- A tree with both. -/
def rootTree : RootTree :=
  { vers := 17, data := { named := { name := b! "t" }, entries := 5, weight := 7, flushedBytes := 5, defaultEntryOffsetLen := 1000 }
    branches := [numbersBranch, splitBranch], leaves := [300, 600, 900] }

theorem rootTree_ok : rootTree.Ok := by
  have hleaf : ∀ (l : RootLeaf), l.Ok → ∀ x ∈ [l], x.Ok := fun l hl x hx => by
    simp only [List.mem_cons, List.not_mem_nil, or_false] at hx
    exact hx ▸ hl
  have hnone : PointerOk none := fun _ h => by cases h
  have hsome : ∀ n, 2 ≤ n → n < 2 ^ 30 → PointerOk (some n) := fun n h1 h2 m hm => by cases hm; exact ⟨h1, h2⟩
  refine ⟨by decide, ?_, by decide, ?_, by decide, by decide, ?_⟩
  · exact ⟨by decide, by decide, by decide, by decide, by decide, by decide, by decide, by decide, by decide, by decide,
      by decide, by decide, by decide, by decide, by decide, by decide, by decide, by decide, by decide, by decide,
      by decide, by decide, by decide, by decide, by decide⟩
  · show RootBranch.OkAll [numbersBranch, splitBranch]
    rw [RootBranch.OkAll, RootBranch.OkAll, RootBranch.OkAll, numbersBranch, splitBranch, RootBranch.Ok, RootBranch.Ok,
      RootBranch.OkAll, RootBranch.OkAll, RootBranch.OkAll, RootBranch.Ok, RootBranch.OkAll]
    refine ⟨⟨?_, by decide, trivial⟩, ⟨?_, by decide, ⟨?_, by decide, trivial⟩, trivial⟩, trivial⟩
    · refine ⟨by decide, by decide, by decide, by decide, by decide, by decide, by decide, by decide, by decide, by decide,
        by decide, by decide, by decide, by decide, by decide, by decide, ?_, by decide, ?_, by decide, by decide, by decide,
        by decide, by decide, by decide, by decide, by decide, fun e he => by cases he⟩
      · exact hleaf _ ⟨⟨rfl, ⟨by decide, by decide, by decide, by decide, by decide, rfl⟩, (by decide : InI 4 0), (by decide : InI 4 0)⟩, hnone⟩
      · intro a k hk
        simp at hk
    · refine ⟨by decide, by decide, by decide, by decide, by decide, by decide, by decide, by decide, by decide, by decide,
        by decide, by decide, by decide, by decide, by decide, by decide, ?_, by decide, ?_, by decide, by decide, by decide,
        by decide, by decide, by decide, by decide, by decide, fun e he => ?_⟩
      · exact hleaf _ ⟨⟨rfl, ⟨by decide, by decide, by decide, by decide, by decide, rfl⟩, by decide, by decide⟩, hnone⟩
      · intro a k hk
        simp at hk
      · cases he
        exact ⟨by decide, ⟨by decide, by decide, by decide, by decide, by decide, by decide, by decide, by decide, by decide⟩,
          hnone, hnone⟩
    · refine ⟨by decide, by decide, by decide, by decide, by decide, by decide, by decide, by decide, by decide, by decide,
        by decide, by decide, by decide, by decide, by decide, by decide, ?_, by decide, ?_, by decide, by decide, by decide,
        by decide, by decide, by decide, by decide, by decide, fun e he => ?_⟩
      · exact hleaf _ ⟨⟨rfl, ⟨by decide, by decide, by decide, by decide, by decide, rfl⟩, by decide, by decide⟩,
          hsome _ (by decide) (by decide)⟩
      · intro a k hk
        simp only [List.mem_cons, Option.some.injEq, Prod.mk.injEq, List.not_mem_nil, or_false] at hk
        rw [hk.2]
        exact keptVectors_ok
      · cases he
        exact ⟨by decide, ⟨by decide, by decide, by decide, by decide, by decide, by decide, by decide, by decide, by decide⟩,
          hsome _ (by decide) (by decide), hnone⟩
  · intro pos hp
    simp only [rootTree, List.mem_cons, List.not_mem_nil, or_false] at hp
    rcases hp with rfl | rfl | rfl <;> exact hsome _ (by decide) (by decide)

theorem rootTree_depth : RootBranch.depthAll rootTree.branches = 2 := by decide

example : RoundTripAt 50 [] rootTree.write (TreeData.unmarshal (readAny 4)) (rootTree.seen, RootBranch.seenAll rootTree.branches, none) :=
  C61_record rootTree rootTree_ok 50 [] 2 (by decide)

/-- The same tree with the first branch only. -/
def smallTree : RootTree := { rootTree with branches := [numbersBranch], leaves := [300] }

theorem smallTree_ok : smallTree.Ok := by
  obtain ⟨h1, h2, h3, h4, h5, h6, h7⟩ := rootTree_ok
  have h4 : RootBranch.OkAll [numbersBranch, splitBranch] := h4
  rw [RootBranch.OkAll] at h4
  refine ⟨h1, h2, by decide, ?_, by decide, by decide, fun n hn => h7 n ?_⟩
  · show RootBranch.OkAll [numbersBranch]
    rw [RootBranch.OkAll, RootBranch.OkAll]
    exact ⟨h4.1, trivial⟩
  · have hn : n ∈ [300] := hn
    show n ∈ [300, 600, 900]
    simp only [List.mem_cons, List.not_mem_nil, or_false] at hn
    simp [hn]

theorem smallTree_length : (match smallTree.write (WBuffer.holding 50 []) with | .ok (_, w) => w.p.length | .error _ => 0) = 718 := by
  decide +kernel

/-- The file with the baskets at 100 and the record `bs` of the tree behind them. -/
def rootTreeFile (bs : List Byte) : FileR :=
  { header := {}, img := List.replicate 100 0 ++ twoBaskets.flatMap RootBasket.record ++ List.replicate 50 0 ++ bs
    dir := { keys := [{ name := b! "t", cls := b! "TTree", seekKey := 251, keyLen := 50, nBytes := 768, objLen := 718 }] } }

theorem smallTree_in : ∃ bs, smallTree.In twelveDec (rootTreeFile bs) (b! "t") := by
  obtain ⟨bs, w, h1, h2, -⟩ := C61_record smallTree smallTree_ok 50 [] 1 (by decide)
  rw [List.nil_append] at h2
  have hl := smallTree_length
  rw [h1] at hl
  have hl : w.p.length = 718 := hl
  have h251 : (List.replicate 100 (0 : Byte) ++ twoBaskets.flatMap RootBasket.record ++ List.replicate 50 0).length = 301 := by
    decide +kernel
  rw [h2] at hl
  refine ⟨bs, smallTree_ok, { key := { name := b! "t", cls := b! "TTree", seekKey := 251, keyLen := 50, nBytes := 768, objLen := 718 } },
    bs, ⟨by rfl, by decide, by decide, by decide, by rw [hl]; rfl, fun _ => ⟨by rw [hl]; rfl, ?_⟩, fun z hz => by cases hz⟩,
    ⟨_, _, h1, h2⟩, rfl, by rw [hl]; decide⟩
  show bs <+: (List.replicate 100 0 ++ twoBaskets.flatMap RootBasket.record ++ List.replicate 50 0 ++ bs).drop 301
  rw [← h251, List.drop_left]
  exact List.prefix_refl _

theorem numbersBranch_filled (bs : List Byte) :
    numbersBranch.Filled ((rootTreeFile bs).reader twelveDec) numberLeaf twoBaskets := by
  refine ⟨rfl, rfl, by decide, rfl, rfl, rfl, fun x hx => ?_⟩
  have h := (twoBaskets_listed []).there x hx
  refine ⟨h.1, List.IsPrefix.trans h.2 ?_⟩
  show twoBasketsReader.img.drop _ <+: (List.replicate 100 0 ++ twoBaskets.flatMap RootBasket.record ++ List.replicate 50 0 ++ bs).drop _
  show (List.replicate 100 0 ++ twoBaskets.flatMap RootBasket.record).drop _ <+: _
  rw [List.append_assoc, List.drop_append (l₁ := List.replicate 100 0 ++ twoBaskets.flatMap RootBasket.record)]
  exact List.prefix_append _ _

/-- The numbers of the first branch, from the file. -/
example : ∃ f td branches x, FileR.getTree twelveDec 4 f (b! "t") = .ok (td, branches, none) ∧ x ∈ branchesR branches ∧
    x.name = b! "x" ∧ x.getBasket (f.reader twelveDec) Ty.i32.unmarshal = .ok [(1 : Int), -2, 3, 4, 5] := by
  obtain ⟨bs, h⟩ := smallTree_in
  obtain ⟨td, brs, x, h1, h2, h3, -, h5⟩ := C61_entries (ty := .i32) smallTree twelveDec _ _ h 4 (by decide) numbersBranch
    (by
      show numbersBranch ∈ RootBranch.listAll [numbersBranch]
      rw [RootBranch.listAll, numbersBranch, RootBranch.listing]
      simp)
    numberLeaf twoBaskets (numbersBranch_filled bs) [[(1 : Int), -2], [3, 4, 5]] twoBaskets_hold
    twoBaskets_table (by decide)
  exact ⟨_, td, brs, x, h1, h2, h3, h5⟩

/-- The branch inside the second one is found by its name. -/
example : lookupBranch (RootBranch.seenAll rootTree.branches) (b! "v") =
    some (RootBranch.seen (splitBranch.sub.headD numbersBranch)) := by
  have hl : RootBranch.listAll rootTree.branches = [numbersBranch, splitBranch, splitBranch.sub.headD numbersBranch] := by
    show RootBranch.listAll [numbersBranch, splitBranch] = _
    simp [RootBranch.listAll, RootBranch.listing, numbersBranch, splitBranch, RootBranch.sub]
  refine (C61_branches rootTree).2 (splitBranch.sub.headD numbersBranch) (by rw [hl]; simp) ?_
  intro c hc hn
  rw [hl] at hc
  simp only [List.mem_cons, List.not_mem_nil, or_false] at hc
  rcases hc with rfl | rfl | rfl
  · exact absurd hn (by decide)
  · exact absurd hn (by decide)
  · rfl

/-- What reading the record of a tree ends with when the `i`-th of the seven objects behind its leaves
(aliases, sorted index, index, tree index, friends, user information, reference table) is an empty list
and the others are absent. -/
def tailFault (i : Nat) : Option Fault :=
  let t : RootTree := { vers := 20, data := { named := { name := b! "t" } }, branches := [], leaves := [] }
  match t.writeWith (Wr.each (fun j => if j = i then Wr.drop (Wr.objectAny (userList 990 [] [])) else rootPointer none)
      [0, 1, 2, 3, 4, 5, 6]) (WBuffer.holding 0 []) with
  | .error e => some e
  | .ok (_, w) => match TreeData.unmarshal (readAny 4) (RBuffer.over 0 w.p 0) with
    | .error e => some e
    | .ok _ => none

/-- What reading a list of leaves that has one object of class `cls` ends with. -/
def leafFault (cls : Str) : Option Fault :=
  match Verif.rootArray 1 (Wr.drop (Wr.objectAny { cls := cls, addr := 1, marshal := Leaf.marshal numberLeaf })) (WBuffer.holding 0 []) with
  | .error e => some e
  | .ok (_, w) => match Rd.arrayOf (readAny 4) Obj.toLeaf (RBuffer.over 0 w.p 0) with
    | .error e => some e
    | .ok _ => none

/-- C61 is false of trees that ROOT writes with more than this: a list of aliases, an index, a list of
friends or a reference table makes reading the tree abort, though the user information does not; and a
leaf of a class the reader has not been told of is refused with the tree that has it. -/
theorem C61_false :
    (List.range 8).map tailFault = [some .panic, some .panic, some .panic, some .panic, some .panic, none, some .panic, none] ∧
    leafFault (b! "TLeafI") = none ∧
    [b! "TLeafG", b! "TLeafF16", b! "TLeafD32", b! "TLeafObject"].map leafFault =
      List.replicate 4 (some (.err .classNotRegistered)) := by
  decide +kernel

end Verif
