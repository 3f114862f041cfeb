import Verif.Lemmas.RootBaskets
/-
C60: the entries in the baskets that ROOT wrote.
-/
namespace Verif

theorem gives_plain {t : Ty} {r : Reader} {b : Branch} {l : Leaf} {bs : List RootBasket} {groups : List (List t.Val)}
    (hold : Hold bs (marshalled t) groups) (htab : ∀ x ∈ bs, x.table = true → l.isText)
    (hok : ∀ g ∈ groups, ∀ v ∈ g, t.Ok v) :
    Alike (ChunkGives t.unmarshal) (bs.map fun x => match b.elem with
        | none => x.data.chunk b.data.entries l (l.sized l.tleaf.etype x.nevSize)
        | some e => x.data.chunkElement (e.header r b.data.named.name) l (l.sized l.tleaf.etype x.nevSize)) groups := by
  refine Alike.map_left ⟨hold.1, fun i x g hx hg => ?_⟩
  have he := hold.2 i x g hx hg
  have hmem := List.mem_of_getElem? hx
  have hcount : (x.entries.length : Int) = g.length := by rw [he, List.length_map]
  have hreg := gives_regular (hok g (List.mem_of_getElem? hg)) hcount (l.sized l.tleaf.etype x.nevSize)
  rw [← he] at hreg
  have hd : ∀ e : Option BranchElem, (match e with
        | none => x.data.chunk b.data.entries l (l.sized l.tleaf.etype x.nevSize)
        | some e => x.data.chunkElement (e.header r b.data.named.name) l (l.sized l.tleaf.etype x.nevSize)) =
      .ok (.regular x.entries.length (l.sized l.tleaf.etype x.nevSize) x.entries.flatten) := by
    intro e
    unfold RootBasket.data
    cases ht : x.table with
    | false => cases e <;> rfl
    | true =>
      have hl := htab x hmem ht
      unfold Leaf.isText at hl
      split at hl
      · cases e <;> rfl
      · exact hl.elim
  have := hd b.elem
  dsimp only
  rw [this]
  exact hreg

/-- C60, one basket: whatever its version, its place in the file (beyond 2 GB included), its compression
and its entries, the basket is found to have as many entries as it has, with their bytes and, when it has
a table, where each of them begins. -/
theorem C60_basket (r : Reader) (b : RootBasket) (h : b.In r) (size : Int) (leaf : Leaf) :
    ∃ bk, Slot.read r ⟨b.key.seekKey, b.key.nBytes, size, leaf⟩ = .ok (bk,
      if b.table then .unTrust b.entries.length b.entries.flatten (bounds 0 b.entries)
      else .trust b.entries.length b.entries.flatten) :=
  ⟨_, h.read size leaf⟩

/-- C60, numbers, arrays of fixed size and texts: the entries of a branch are the values in its baskets,
those of the first basket first, for every number of baskets, compressed or not. -/
theorem C60_plain {t : Ty} (r : Reader) (b : Branch) (hb : b.branches = []) (hin : b.data.baskets = [])
    (l : Leaf) (bs : List RootBasket) (hbs : Lists r b.data l bs) (groups : List (List t.Val))
    (hold : Hold bs (marshalled t) groups) (htab : ∀ x ∈ bs, x.table = true → l.isText)
    (hok : ∀ g ∈ groups, ∀ v ∈ g, t.Ok v) :
    b.getBasket r t.unmarshal = .ok groups.flatten := by
  refine getBasket_gives hb ?_ (gives_plain (r := r) (b := b) hold htab hok)
  rw [hbs.chunks, hin]
  cases b.elem <;> rfl

theorem gives_objects {t : Ty} {r : Reader} {b : Branch} {e : BranchElem} (he : b.elem = some e) {h : Nat}
    (hh : e.header r b.data.named.name = .ok (h : Int)) {l : Leaf} (hl : ∃ a b c d, l = .element a b c d)
    {bs : List RootBasket} {groups : List (List (List Byte × List t.Val))}
    (hold : Hold bs (fun p => p.1 ++ countedBytes t p.2) groups) (htab : ∀ x ∈ bs, x.table = true)
    (hok : ∀ g ∈ groups, ∀ p ∈ g, IsHeader p.1 ∧ p.1.length = h ∧ p.2.length < 2 ^ 31 ∧ ∀ v ∈ p.2, t.Ok v) :
    Alike (ChunkGives (Ty.vec t).unmarshal) (bs.map fun x => match b.elem with
        | none => x.data.chunk b.data.entries l (l.sized l.tleaf.etype x.nevSize)
        | some e => x.data.chunkElement (e.header r b.data.named.name) l (l.sized l.tleaf.etype x.nevSize))
      (groups.map fun g => g.map Prod.snd) := by
  refine Alike.map_left (Alike.map_right ⟨hold.1, fun i x g hx hg => ?_⟩)
  have hen := hold.2 i x g hx hg
  have ht := htab x (List.mem_of_getElem? hx)
  obtain ⟨a1, a2, a3, a4, rfl⟩ := hl
  have := gives_vectors (hok g (List.mem_of_getElem? hg)) (x.entries.length : Int)
  rw [← hen] at this
  rw [he]
  dsimp only
  unfold RootBasket.data
  rw [ht, if_pos rfl, hh]
  unfold BasketData.chunkElement
  simp only [bind, Except.bind, slices_bounds]
  exact this

/-- C60, vectors: the entries of a branch of vectors are the vectors in its baskets, in order, whatever the
headers in front of them. -/
theorem C60_vectors {t : Ty} (r : Reader) (b : Branch) (hb : b.branches = []) (hin : b.data.baskets = [])
    (e : BranchElem) (he : b.elem = some e) (h : Nat) (hh : e.header r b.data.named.name = .ok (h : Int))
    (l : Leaf) (hl : ∃ a b c d, l = .element a b c d)
    (bs : List RootBasket) (hbs : Lists r b.data l bs) (htab : ∀ x ∈ bs, x.table = true)
    (groups : List (List (List Byte × List t.Val))) (hold : Hold bs (fun p => p.1 ++ countedBytes t p.2) groups)
    (hok : ∀ g ∈ groups, ∀ p ∈ g, IsHeader p.1 ∧ p.1.length = h ∧ p.2.length < 2 ^ 31 ∧ ∀ v ∈ p.2, t.Ok v) :
    b.getBasket r (Ty.vec t).unmarshal = .ok (groups.flatten.map Prod.snd) := by
  rw [List.map_flatten]
  refine getBasket_gives hb ?_ (gives_objects he hh hl hold htab hok)
  rw [hbs.chunks, hin, he]
  rfl

/-- C60, everything else: the baskets of ROOT that have tables are ones that keep their entries, as the
theorems about sets, maps and arrays of varying size (C51, C52) demand. -/
theorem C60_keeps (r : Reader) (d : BranchData) (hin : d.baskets = []) (l : Leaf) (bs : List RootBasket)
    (hbs : Lists r d l bs) (htab : ∀ x ∈ bs, x.table = true) (L : Slot → Prop)
    (hL : ∀ x ∈ bs, L ⟨x.key.seekKey, x.key.nBytes, l.tleaf.etype, l⟩) :
    Keeps r d L (bs.map RootBasket.entries) := by
  refine ⟨hin, _, hbs.slots, Alike.map_left (Alike.map_right ⟨rfl, fun i x y hx hy => ?_⟩)⟩
  rw [hx] at hy
  cases hy
  have hmem := List.mem_of_getElem? hx
  refine ⟨hL x hmem, ?_⟩
  have := (hbs.there x hmem).read l.tleaf.etype l
  unfold RootBasket.data at this
  rw [htab x hmem, if_pos rfl] at this
  exact ⟨_, _, this⟩

/-! ### The basket in the record of the branch -/

/-- C60 with a basket in the record of the branch, for numbers, arrays of fixed size and texts: its
values are all given, BEFORE those of the other baskets.

Missing for the full property: they are the last ones of the branch, see `C60_false`; the order is right
when the branch has no other basket. -/
theorem C60_plain_kept_partial {t : Ty} (r : Reader) (b : Branch) (hb : b.branches = []) (he : b.elem = none)
    (k : KeptBasket) (hk : KeepsInside b.data k) (last : List t.Val) (hlast : k.entries = last.map (marshalled t))
    (hlok : ∀ v ∈ last, t.Ok v)
    (l : Leaf) (bs : List RootBasket) (hbs : Lists r b.data l bs) (groups : List (List t.Val))
    (hold : Hold bs (marshalled t) groups) (htab : ∀ x ∈ bs, x.table = true → l.isText)
    (hok : ∀ g ∈ groups, ∀ v ∈ g, t.Ok v) :
    b.getBasket r t.unmarshal = .ok (last ++ groups.flatten) := by
  obtain ⟨hkok, bk, hbk, hin⟩ := hk
  rw [readWith_reads (KeptBasket.reads hkok) (List.append_nil _).symm] at hbk
  cases hbk
  rw [← List.flatten_cons]
  refine getBasket_gives hb (cs := .ok (.regular k.entries.length 1 k.entries.flatten) :: _) ?_
    (Alike.cons ?_ (gives_plain (r := r) (b := b) hold htab hok))
  · rw [hbs.chunks, hin, he]
    dsimp only
    rw [k.base hkok]
    rfl
  · rw [hlast]
    exact gives_regular hlok (by rw [List.length_map]) 1

/-- C60 with a basket in the record of the branch, for vectors: the same. -/
theorem C60_vectors_kept_partial {t : Ty} (r : Reader) (b : Branch) (hb : b.branches = [])
    (e : BranchElem) (he : b.elem = some e) (h : Nat) (hh : e.header r b.data.named.name = .ok (h : Int))
    (k : KeptBasket) (hk : KeepsInside b.data k) (hkt : k.table = true)
    (last : List (List Byte × List t.Val)) (hlast : k.entries = last.map fun p => p.1 ++ countedBytes t p.2)
    (hlok : ∀ p ∈ last, IsHeader p.1 ∧ p.1.length = h ∧ p.2.length < 2 ^ 31 ∧ ∀ v ∈ p.2, t.Ok v)
    (l : Leaf) (hl : ∃ a b c d, l = .element a b c d)
    (bs : List RootBasket) (hbs : Lists r b.data l bs) (htab : ∀ x ∈ bs, x.table = true)
    (groups : List (List (List Byte × List t.Val))) (hold : Hold bs (fun p => p.1 ++ countedBytes t p.2) groups)
    (hok : ∀ g ∈ groups, ∀ p ∈ g, IsHeader p.1 ∧ p.1.length = h ∧ p.2.length < 2 ^ 31 ∧ ∀ v ∈ p.2, t.Ok v) :
    b.getBasket r (Ty.vec t).unmarshal = .ok (last.map Prod.snd ++ groups.flatten.map Prod.snd) := by
  obtain ⟨hkok, bk, hbk, hin⟩ := hk
  rw [readWith_reads (KeptBasket.reads hkok) (List.append_nil _).symm] at hbk
  cases hbk
  rw [List.map_flatten, ← List.flatten_cons]
  refine getBasket_gives hb (cs := .ok (.irregular 0 k.entries h) :: _) ?_
    (Alike.cons ?_ (gives_objects he hh hl hold htab hok))
  · rw [hbs.chunks, hin, he]
    dsimp only
    rw [hh, k.element hkok hkt]
    rfl
  · rw [hlast]
    exact gives_vectors hlok 0

/-! ### Cases -/

/-- A decoder that gives the first twelve bytes. -/
def twelveDec : Decoders := ⟨fun s => some (s.take 12), fun _ => none, fun _ => none⟩

/-- A basket of two numbers at 100, and a compressed one of three, of a big file, behind it. -/
def twoBaskets : List RootBasket :=
  [{ key := { nBytes := 65, objLen := 8, keyLen := 57, seekKey := 100, seekPdir := 100, cls := b! "TBasket",
              name := b! "x", title := b! "t" }
     date := 5, bufSize := 32000, nevSize := 4, entries := [(1 : Int), -2].map (marshalled .i32), table := false },
   { key := { rvers := 1004, nBytes := 86, objLen := 12, keyLen := 65, seekKey := 165, seekPdir := 100, cls := b! "TBasket",
              name := b! "x", title := b! "t" }
     date := 5, bufSize := 32000, nevSize := 4, entries := [(3 : Int), 4, 5].map (marshalled .i32), table := false
     block := some { kind := .zlib, method := 8, plain := [0, 0, 0, 3, 0, 0, 0, 4, 0, 0, 0, 5]
                     packed := [0, 0, 0, 3, 0, 0, 0, 4, 0, 0, 0, 5] } }]

/-- The file. -/
def twoBasketsReader : Reader := ⟨twelveDec, List.replicate 100 0 ++ twoBaskets.flatMap RootBasket.record, []⟩

/-- A leaf for numbers. -/
def numberLeaf : Leaf := .var .I 1 { named := { name := b! "x", title := b! "x" }, len := 1, etype := 4 } 0 0

/-- The branch. -/
def twoBasketsBranch (kept : List Basket) : Branch :=
  .mk { named := { name := b! "x" }, entries := 5, leaves := [numberLeaf], basketBytes := [65, 86], basketSeek := [100, 165]
        baskets := kept } none []

theorem twoBaskets_listed (kept : List Basket) :
    Lists twoBasketsReader (twoBasketsBranch kept).data numberLeaf twoBaskets := by
  refine ⟨rfl, rfl, rfl, ?_⟩
  intro b hb
  simp only [twoBaskets, List.mem_cons, List.not_mem_nil, or_false] at hb
  rcases hb with rfl | rfl
  · exact ⟨⟨by decide, by decide, by decide, by decide, by decide, by decide +kernel, by decide +kernel, by decide +kernel,
      by decide, by decide +kernel, by decide, by decide, (fun z hz => by cases hz)⟩, by decide +kernel⟩
  · refine ⟨⟨by decide, by decide, by decide, by decide, by decide, by decide +kernel, by decide +kernel, by decide +kernel,
      by decide, by decide +kernel, by decide, by decide, fun z hz => ?_⟩, by decide +kernel⟩
    cases hz
    exact ⟨⟨by decide, by decide, fun _ => ⟨rfl, fun _ => rfl⟩, (fun h => by cases h), (fun h => by cases h)⟩,
      by decide +kernel, by decide +kernel⟩

theorem twoBaskets_hold : Hold twoBaskets (marshalled .i32) [[(1 : Int), -2], [3, 4, 5]] :=
  Alike.cons rfl (Alike.cons rfl Alike.nil)

theorem twoBaskets_table : ∀ x ∈ twoBaskets, x.table = true → numberLeaf.isText := by
  have : ∀ x ∈ twoBaskets, x.table = false := by decide
  intro x hx h
  rw [this x hx] at h
  cases h

/-- The entries of both, in order. -/
example : (twoBasketsBranch []).getBasket twoBasketsReader Ty.i32.unmarshal = .ok [(1 : Int), -2, 3, 4, 5] :=
  C60_plain (t := .i32) twoBasketsReader (twoBasketsBranch []) rfl rfl numberLeaf twoBaskets (twoBaskets_listed [])
    [[(1 : Int), -2], [3, 4, 5]] twoBaskets_hold twoBaskets_table (by decide)

/-- Two vectors, in a basket with a table. -/
def vectorBasket : RootBasket :=
  { key := { nBytes := 101, objLen := 44, keyLen := 57, seekKey := 0, seekPdir := 100, cls := b! "TBasket",
             name := b! "x", title := b! "t" }
    date := 5, bufSize := 32000, nevSize := 1000, table := true, unused := 77
    entries := [[64, 0, 0, 14, 0, 9] ++ countedBytes .i32 [(7 : Int), -1], [64, 0, 0, 6, 0, 9] ++ countedBytes .i32 []] }

/-- Their branch. -/
def vectorBranch (kept : List Basket) : Branch :=
  .mk { named := { name := b! "x" }, entries := 2, leaves := [.element 1 {} 0 (-1)], basketBytes := [101], basketSeek := [0]
        baskets := kept } (some { className := b! "vector<int>", stype := -1 }) []

theorem vectorBasket_listed (kept : List Basket) :
    Lists ⟨twelveDec, vectorBasket.record, []⟩ (vectorBranch kept).data (.element 1 {} 0 (-1)) [vectorBasket] := by
  refine ⟨rfl, rfl, rfl, ?_⟩
  intro b hb
  simp only [List.mem_cons, List.not_mem_nil, or_false] at hb
  subst hb
  exact ⟨⟨by decide, by decide, by decide, by decide, by decide, by decide +kernel, by decide +kernel, by decide +kernel,
      by decide, by decide +kernel, by decide, by decide, (fun z hz => by cases hz)⟩, by decide +kernel⟩

/-- The vectors with their headers. -/
def twoVectors : List (List Byte × List Ty.i32.Val) := [([64, 0, 0, 14, 0, 9], [(7 : Int), -1]), ([64, 0, 0, 6, 0, 9], [])]

theorem twoVectors_ok : ∀ p ∈ twoVectors, IsHeader p.1 ∧ p.1.length = 6 ∧ p.2.length < 2 ^ 31 ∧ ∀ v ∈ p.2, Ty.i32.Ok v := by
  intro p hp
  simp only [twoVectors, List.mem_cons, List.not_mem_nil, or_false] at hp
  rcases hp with rfl | rfl
  · exact ⟨⟨by decide, rfl⟩, rfl, by decide, by decide⟩
  · exact ⟨⟨by decide, rfl⟩, rfl, by decide, by decide⟩

example : (vectorBranch []).getBasket ⟨twelveDec, vectorBasket.record, []⟩ (Ty.vec .i32).unmarshal = .ok [[(7 : Int), -1], []] :=
  C60_vectors (t := .i32) _ (vectorBranch []) rfl rfl _ rfl 6 rfl _ ⟨_, _, _, _, rfl⟩ [vectorBasket] (vectorBasket_listed [])
    (by decide) [twoVectors] (Alike.cons rfl Alike.nil) (fun g hg p hp => by
      simp only [List.mem_cons, List.not_mem_nil, or_false] at hg; subst hg; exact twoVectors_ok p hp)

example : Keeps ⟨twelveDec, vectorBasket.record, []⟩ (vectorBranch []).data Slot.isObject [vectorBasket.entries] :=
  C60_keeps _ _ rfl _ [vectorBasket] (vectorBasket_listed []) (by decide) _ fun _ _ => ⟨_, _, _, _, rfl⟩

/-- A basket being filled, with the number 6. -/
def keptNumbers : KeptBasket :=
  { key := { nBytes := 0, objLen := 0, keyLen := 57, seekPdir := 100, cls := b! "TBasket", name := b! "x", title := b! "t" }
    date := 5, bufSize := 32000, nevSize := 4, entries := [(6 : Int)].map (marshalled .i32), table := false
    front := List.replicate 57 0 }

/-- One with a vector. -/
def keptVectors : KeptBasket :=
  { key := { nBytes := 0, objLen := 0, keyLen := 57, seekPdir := 100, cls := b! "TBasket", name := b! "x", title := b! "t" }
    date := 5, bufSize := 32000, nevSize := 1000, table := true, front := List.replicate 57 0
    entries := [[64, 0, 0, 14, 0, 9] ++ countedBytes .i32 [(7 : Int), -1], [64, 0, 0, 6, 0, 9] ++ countedBytes .i32 []] }

theorem keptNumbers_ok : keptNumbers.Ok :=
  ⟨by decide, by decide, by decide, by decide, by decide, by decide, by decide +kernel, by decide⟩

theorem keptVectors_ok : keptVectors.Ok :=
  ⟨by decide, by decide, by decide, by decide, by decide, by decide, by decide +kernel, by decide⟩

theorem keptInside {k : KeptBasket} (h : k.Ok) {d : BranchData} (hd : d.baskets = [k.afterRead]) : KeepsInside d k :=
  ⟨h, k.afterRead, readWith_reads (KeptBasket.reads h) (List.append_nil _).symm, hd⟩

example : (vectorBranch [keptVectors.afterRead]).getBasket ⟨twelveDec, vectorBasket.record, []⟩ (Ty.vec .i32).unmarshal =
    .ok [[(7 : Int), -1], [], [7, -1], []] :=
  C60_vectors_kept_partial (t := .i32) _ (vectorBranch [keptVectors.afterRead]) rfl _ rfl 6 rfl keptVectors
    (keptInside keptVectors_ok rfl) rfl twoVectors rfl twoVectors_ok _ ⟨_, _, _, _, rfl⟩ [vectorBasket] (vectorBasket_listed _)
    (by decide) [twoVectors] (Alike.cons rfl Alike.nil) (fun g hg p hp => by
      simp only [List.mem_cons, List.not_mem_nil, or_false] at hg; subst hg; exact twoVectors_ok p hp)

/-- C60 is false when a basket is kept in the record of the branch besides others: it was being filled when
the file was closed, so that its entry is the last one, and it is given first. -/
theorem C60_false : ∃ (r : Reader) (b : Branch) (l : Leaf) (bs : List RootBasket) (k : KeptBasket),
    b.branches = [] ∧ b.elem = none ∧ Lists r b.data l bs ∧ KeepsInside b.data k ∧
    Hold bs (marshalled .i32) [[(1 : Int), -2], [3, 4, 5]] ∧ k.entries = [(6 : Int)].map (marshalled .i32) ∧
    b.getBasket r Ty.i32.unmarshal = .ok [(6 : Int), 1, -2, 3, 4, 5] := by
  refine ⟨twoBasketsReader, twoBasketsBranch [keptNumbers.afterRead], numberLeaf, twoBaskets, keptNumbers, rfl, rfl,
    twoBaskets_listed _, keptInside keptNumbers_ok rfl, twoBaskets_hold, rfl, ?_⟩
  exact C60_plain_kept_partial (t := .i32) _ _ rfl rfl keptNumbers (keptInside keptNumbers_ok rfl) [(6 : Int)] rfl (by decide)
    numberLeaf twoBaskets (twoBaskets_listed _) [[(1 : Int), -2], [3, 4, 5]] twoBaskets_hold twoBaskets_table (by decide)

end Verif
