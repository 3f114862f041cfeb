import Verif.Lemmas.Members
import Verif.Props.CppNames
import Verif.Props.RootTrees
/-
C73: members of classes are read by their own descriptions.
-/
namespace Verif

attribute [local irreducible] cleanTypeName

/-- Entries with a header of `h` bytes, each of which is read as one value. -/
theorem gives_entries {α : Type} {β : Type} {func : Rd β} {r : Reader} {b : Branch} {e : BranchElem} (he : b.elem = some e) {h : Int}
    (hh : e.header r b.data.named.name = .ok h) {l : Leaf} (hl : ∃ a b c d, l = .element a b c d)
    {bs : List RootBasket} {enc : α → List Byte} {val : α → β} {groups : List (List α)} (hold : Hold bs enc groups)
    (htab : ∀ x ∈ bs, x.table = true)
    (hok : ∀ g ∈ groups, ∀ p ∈ g, ∃ Q, ReadsE (· = some h) Q func (enc p) (val p)) :
    Alike (ChunkGives func) (bs.map fun x => match b.elem with
        | none => x.data.chunk b.data.entries l (l.sized l.tleaf.etype x.nevSize)
        | some e => x.data.chunkElement (e.header r b.data.named.name) l (l.sized l.tleaf.etype x.nevSize))
      (groups.map fun g => g.map val) := by
  refine Alike.map_left (Alike.map_right ⟨hold.1, fun i x g hx hg => ?_⟩)
  have hen := hold.2 i x g hx hg
  have ht := htab x (List.mem_of_getElem? hx)
  obtain ⟨a1, a2, a3, a4, rfl⟩ := hl
  rw [he]
  dsimp only
  unfold RootBasket.data
  rw [ht, if_pos rfl, hh]
  unfold BasketData.chunkElement
  simp only [bind, Except.bind, slices_bounds]
  refine ⟨_, rfl, ?_⟩
  unfold Chunk.items
  dsimp only
  rw [hen, List.map_map]
  refine collect_map fun p hp => ?_
  obtain ⟨Q, hQ⟩ := hok g (List.mem_of_getElem? hg) p hp
  have := readWith_skip (rest := []) hQ
  rw [List.append_nil] at this
  simp only [Function.comp_apply, this]
  rfl

theorem getBasket_entries {α β : Type} {func : Rd β} {r : Reader} {b : Branch} (hb : b.branches = []) (hin : b.data.baskets = [])
    {e : BranchElem} (he : b.elem = some e) {h : Int}
    (hh : e.header r b.data.named.name = .ok h) {l : Leaf} (hl : ∃ a b c d, l = .element a b c d)
    {bs : List RootBasket} (hbs : Lists r b.data l bs) {enc : α → List Byte} {val : α → β} {groups : List (List α)}
    (hold : Hold bs enc groups) (htab : ∀ x ∈ bs, x.table = true)
    (hok : ∀ g ∈ groups, ∀ p ∈ g, ∃ Q, ReadsE (· = some h) Q func (enc p) (val p)) :
    b.getBasket r func = .ok (groups.flatten.map val) := by
  rw [List.map_flatten]
  refine getBasket_gives hb ?_ (gives_entries he hh hl hold htab hok)
  rw [hbs.chunks, hin, he]
  rfl

theorem MemberBranch.streamer {r : Reader} {b : Branch} {k : Int} {m : Streamer} (h : MemberBranch r.sinfos b k m)
    {e : BranchElem} (he : b.elem = some e) : e.stype = k ∧ e.streamer r b.data.named.name = some m := by
  obtain ⟨e', he', h1, h2⟩ := h.elem
  rw [he] at he'
  cases he'
  exact ⟨h1, h2.streamer h.name.clean⟩

theorem IsStl.header {m : Streamer} (h : IsStl m) (cls : Str) : headerBytesFromType 300 (some m) cls = .ok 6 := by
  cases m <;> first | exact h.elim | rfl

/-! ### The property -/

/-- C73, containers and strings of the standard library: the branch of a member is read as the type that the record
of its class gives to the member of this name, and as no other; and the values come back, the headers in front of them
left out.  Missing: `C73_false`. -/
theorem C73_member_partial {r : Reader} {b : Branch} {m : Streamer} (hb : MemberBranch r.sinfos b 300 m) (hm : IsStl m)
    {s : Str} {t : Ty} (hs : (s, t) ∈ cppSpellings) (ks : List Nat) (he : m.element.ename = spelled ks s)
    (top : Bool) :
    (∀ {α : Type} (func : Rd α) (t' : Ty), b.asIter r top (some t'.rdClassNames) func =
      if t' = nestedVec ks.length t then b.getBasket r func else .error (.err .typeMismatch)) ∧
    ((nestedVec ks.length t).hasHeader = true → b.data.baskets = [] →
      ∀ (l : Leaf) (bs : List RootBasket), Lists r b.data l bs → (∀ x ∈ bs, x.table = true) →
      ∀ groups : List (List (List Byte × (nestedVec ks.length t).Val)),
      Hold bs (fun p => p.1 ++ marshalled _ p.2) groups →
      (∀ g ∈ groups, ∀ p ∈ g, p.1.length = 6 ∧ p.1.head? = some 64 ∧ (nestedVec ks.length t).Ok p.2) →
      b.asIter r top (some (nestedVec ks.length t).rdClassNames) (nestedVec ks.length t).unmarshal =
        .ok (groups.flatten.map Prod.snd)) := by
  obtain ⟨e, hel, hst, hcm⟩ := hb.elem
  have hsm := (hb.streamer hel).2
  obtain ⟨v, tl, id, code, hlf, hcode, htitle⟩ := hb.leaf
  have hname : b.itemTypeName r top = .ok (cleanTypeName (spelled ks s)) := by
    unfold Branch.itemTypeName
    rw [hel]
    dsimp only
    unfold BranchElem.itemTypeName
    rw [hb.flat, hlf, if_neg (by simp)]
    dsimp only [Leaf.tleaf]
    rw [leafDim_plain htitle]
    simp only [bind, Except.bind, Leaf.typeName, leafTypeName_object hcode]
    rw [if_neg (by omega), if_pos (.inl hst), hsm]
    dsimp only
    rw [he]
    rfl
  have hty : ∀ {α : Type} (func : Rd α) (t' : Ty), b.asIter r top (some t'.rdClassNames) func =
      if t' = nestedVec ks.length t then b.getBasket r func else .error (.err .typeMismatch) := fun func t' =>
    asIter_exactly hname (clean_spelled (spellings_clean _ hs).1 ks) t'
  refine ⟨hty, fun hh hin l bs hbs htab groups hold hok => ?_⟩
  rw [hty, if_pos rfl]
  have hl : l = .element v tl id code := by
    have := hbs.leaf
    rw [hlf] at this
    cases this
    rfl
  refine getBasket_entries hb.flat hin hel (h := 6) ?_ ⟨_, _, _, _, hl⟩ hbs hold htab fun g hg p hp => ?_
  · unfold BranchElem.header
    rw [hsm, hst]
    exact hm.header _
  · obtain ⟨h1, h2, h3⟩ := hok g hg p hp
    rw [marshalled_eq h3]
    exact ⟨_, Ty.readsFirst (by unfold Ty.isMember; rw [hh, Bool.or_true]) (by unfold MemberHeader; rw [hh, if_pos rfl]; exact ⟨h1, h2⟩) h3⟩

/-- C73, `TString`: it has no header. -/
theorem C73_tstring {r : Reader} {b : Branch} {m : Streamer} (hb : MemberBranch r.sinfos b 65 m) (el : StreamerElement)
    (hm : m = .string el) (hel : el.etype = .named .tString) (top : Bool) :
    (∀ {α : Type} (func : Rd α) (t' : Ty), b.asIter r top (some t'.rdClassNames) func =
      if t' = .string then b.getBasket r func else .error (.err .typeMismatch)) ∧
    (b.data.baskets = [] →
      ∀ (l : Leaf) (bs : List RootBasket), Lists r b.data l bs → (∀ x ∈ bs, x.table = true) →
      ∀ groups : List (List Ty.string.Val), Hold bs (marshalled .string) groups →
      (∀ g ∈ groups, ∀ v ∈ g, Ty.string.Ok v) →
      b.asIter r top (some Ty.string.rdClassNames) Ty.string.unmarshal = .ok groups.flatten) := by
  obtain ⟨e, hee, hst, hcm⟩ := hb.elem
  have hsm := (hb.streamer hee).2
  obtain ⟨v, tl, id, code, hlf, hcode, htitle⟩ := hb.leaf
  have hname : b.itemTypeName r top = .ok (b! "TString") := by
    unfold Branch.itemTypeName
    rw [hee]
    dsimp only
    unfold BranchElem.itemTypeName
    rw [hb.flat, hlf, if_neg (by simp)]
    dsimp only [Leaf.tleaf]
    rw [leafDim_plain htitle]
    simp only [bind, Except.bind, Leaf.typeName, leafTypeName_object hcode]
    rw [if_pos hst]
    rfl
  have hty : ∀ {α : Type} (func : Rd α) (t' : Ty), b.asIter r top (some t'.rdClassNames) func =
      if t' = .string then b.getBasket r func else .error (.err .typeMismatch) := fun func t' =>
    asIter_exactly hname (by decide) t'
  refine ⟨hty, fun hin l bs hbs htab groups hold hok => ?_⟩
  rw [hty, if_pos rfl]
  have hl : l = .element v tl id code := by
    have := hbs.leaf
    rw [hlf] at this
    cases this
    rfl
  have := getBasket_entries (func := Ty.string.unmarshal) (val := fun v : Ty.string.Val => v) hb.flat hin hee (h := 0) ?_
    ⟨_, _, _, _, hl⟩ hbs hold htab fun g hg p hp => ?_
  · rw [this, List.map_id']
  · unfold BranchElem.header headerBytesFromType
    rw [hsm, hm]
    dsimp only
    rw [if_pos hel]
  · have h3 := hok g hg p hp
    rw [marshalled_eq h3]
    exact ⟨_, (Ty.readsClear .string p h3).mono (fun _ h => .inr h) fun _ h => h⟩

/-- C73, from the file: the tree is found by its name, the branch of the member is in its listing, and has the values
that ROOT stored, of the type in the record of the class.  Missing: `C73_false`. -/
theorem C73_file_partial (tr : RootTree) (dec : Decoders) (f : FileR) (name : Str) (h : tr.In dec f name) (fuel : Nat)
    (hf : RootBranch.depthAll tr.branches + 2 ≤ fuel) (b : RootBranch) (hb : b ∈ RootBranch.listAll tr.branches)
    {m : Streamer} (hmb : MemberBranch f.sinfos b.seen 300 m) (hm : IsStl m)
    {s : Str} {t : Ty} (hs : (s, t) ∈ cppSpellings) (ks : List Nat) (he : m.element.ename = spelled ks s)
    (hh : (nestedVec ks.length t).hasHeader = true) (l : Leaf) (bs : List RootBasket) (hbs : b.Filled (f.reader dec) l bs)
    (htab : ∀ x ∈ bs, x.table = true) (groups : List (List (List Byte × (nestedVec ks.length t).Val)))
    (hold : Hold bs (fun p => p.1 ++ marshalled _ p.2) groups)
    (hok : ∀ g ∈ groups, ∀ p ∈ g, p.1.length = 6 ∧ p.1.head? = some 64 ∧ (nestedVec ks.length t).Ok p.2) :
    ∃ td branches x, f.getTree dec fuel name = .ok (td, branches, none) ∧ x ∈ branchesR branches ∧
      x.name = b.shape.data.named.name ∧ x.data.entries = b.shape.data.entries ∧
      ∀ top, x.asIter (f.reader dec) top (some (nestedVec ks.length t).rdClassNames) (nestedVec ks.length t).unmarshal =
        .ok (groups.flatten.map Prod.snd) := by
  obtain ⟨h1, h2, h3, h4⟩ := hbs.lists
  refine ⟨_, _, b.seen, C61_file tr dec f name h fuel hf, ?_, ?_, ?_, fun top =>
    (C73_member_partial (r := f.reader dec) hmb hm hs ks he top).2 hh h2 l bs h3 htab groups hold hok⟩
  · rw [(C61_branches tr).1]
    exact List.mem_map_of_mem hb
  · obtain ⟨s, sub⟩ := b; rw [RootBranch.seen]; rfl
  · obtain ⟨s, sub⟩ := b; rw [RootBranch.seen]; rfl

/-! ### Cases -/

/-- A class `Event`, of version `v`, with a number, the vectors `hits` of type `ty`, a text and a `TString`. -/
def eventRecord (v : Int) (ty : Str) : StreamerInfo :=
  { named := { name := b! "Event" }, clsver := v,
    elems := [.basicType { named := { name := b! "n" }, ename := b! "int" },
      .stl { named := { name := b! "hits" }, ename := ty } .vector (.named .int),
      .stlString { named := { name := b! "label" }, ename := b! "string" } .stdstring (.named .char),
      .string { named := { name := b! "id" }, etype := .named .tString, ename := b! "TString" }] }

/-- Another class that has a member of the same name. -/
def otherRecord : StreamerInfo :=
  { named := { name := b! "Other" }, elems := [.stl { named := { name := b! "hits" }, ename := b! "map<int,float>" } .map (.named .int)] }

/-- The branch of the member `hits` of objects of version `v`, with the basket of two vectors. -/
def hitsBranch (v : Int) : Branch :=
  .mk { named := { name := b! "ev.sub[2].hits" }, entries := 2, leaves := [.element 1 { len := 1 } 0 300], basketBytes := [101], basketSeek := [0] }
    (some { className := b! "Event", stype := 300, clsver := v }) []

/-- A file with these records. -/
def eventReader (sis : List StreamerInfo) : Reader := ⟨twelveDec, vectorBasket.record, sis⟩

theorem hits_listed (v : Int) (sis : List StreamerInfo) :
    Lists (eventReader sis) (hitsBranch v).data (.element 1 { len := 1 } 0 300) [vectorBasket] :=
  ⟨rfl, rfl, rfl, (vectorBasket_listed []).there⟩

theorem hits_hold : Hold [vectorBasket] (fun p : List Byte × (Ty.vec .i32).Val => p.1 ++ marshalled (.vec .i32) p.2)
    [[([64, 0, 0, 14, 0, 9], [(7 : Int), -1]), ([64, 0, 0, 6, 0, 9], [])]] :=
  Alike.cons (by decide +kernel) Alike.nil

theorem hits_ok : ∀ g ∈ [[([64, 0, 0, 14, 0, 9], [(7 : Int), -1]), ([64, 0, 0, 6, 0, 9], [])]],
    ∀ p ∈ g, p.1.length = 6 ∧ p.1.head? = some (64 : Byte) ∧ (Ty.vec .i32).Ok p.2 := by
  intro g hg p hp
  simp only [List.mem_cons, List.not_mem_nil, or_false] at hg
  subst hg
  simp only [List.mem_cons, List.not_mem_nil, or_false] at hp
  rcases hp with rfl | rfl
  · exact ⟨rfl, rfl, by decide⟩
  · exact ⟨rfl, rfl, by decide⟩

theorem hits_name : MemberName (b! "ev.sub[2].hits") (b! "hits") :=
  ⟨by decide, by decide, b! "ev.sub[2].", [], rfl, .inr rfl, .inl rfl, by decide⟩

theorem hits_member : MemberBranch [otherRecord, eventRecord 1 (b! "vector<int>")] (hitsBranch 1) 300
    (.stl { named := { name := b! "hits" }, ename := b! "vector<int>" } .vector (.named .int)) :=
  ⟨rfl, ⟨_, _, _, _, rfl, by decide, by decide⟩, ⟨_, rfl, rfl, eventRecord 1 (b! "vector<int>"), by decide, rfl, by decide, by decide, by decide⟩,
    hits_name⟩

/-- The vectors of the member, whatever the class `Other` has under that name. -/
example : (hitsBranch 1).asIter (eventReader [otherRecord, eventRecord 1 (b! "vector<int>")]) false
    (some (Ty.vec .i32).rdClassNames) (Ty.vec .i32).unmarshal = .ok [[(7 : Int), -1], []] :=
  (C73_member_partial (r := eventReader [otherRecord, eventRecord 1 (b! "vector<int>")]) hits_member trivial
    (s := b! "int") (t := .i32) (by decide) [0] rfl false).2 rfl rfl _ _ (hits_listed 1 _) (by decide) _ hits_hold
      hits_ok

/-- The branch of the `TString`. -/
def idBranch : Branch :=
  .mk { named := { name := b! "ev.id" }, entries := 2, leaves := [.element 1 {} 0 65] }
    (some { className := b! "Event", stype := 65, clsver := 1 }) []

example {α : Type} (func : Rd α) : idBranch.asIter (eventReader [otherRecord, eventRecord 1 (b! "vector<int>")]) true
    (some (Ty.vec .i32).rdClassNames) func = .error (.err .typeMismatch) :=
  ((C73_tstring (r := eventReader [otherRecord, eventRecord 1 (b! "vector<int>")]) (b := idBranch)
    (m := .string { named := { name := b! "id" }, etype := .named .tString, ename := b! "TString" })
    ⟨rfl, ⟨_, _, _, _, rfl, by decide, by decide⟩, ⟨_, rfl, rfl, eventRecord 1 (b! "vector<int>"), by decide, rfl, by decide, by decide, by decide⟩,
      ⟨by decide, by decide, b! "ev.", [], rfl, .inr rfl, .inl rfl, by decide⟩⟩ _ rfl rfl true).1 func (.vec .i32)).trans (if_neg (by decide))

/-- The general claim is false: a file may have records of several versions of a class, as it does when files written by
programs of different age were merged.  The branch says of which version its objects are, but the last record in the
list is taken, whatever its version: here `hits` has integers in version 1 and floating point numbers in version 2, and the
vectors of objects of version 1 are refused as integers, and given as other numbers. -/
theorem C73_false : ∃ (r : Reader) (b : Branch) (e : BranchElem) (si : StreamerInfo) (m : Streamer) (l : Leaf),
    b.elem = some e ∧ si ∈ r.sinfos ∧ si.named.name = e.className ∧ si.clsver = e.clsver ∧
    (∀ x ∈ r.sinfos, x.named.name = e.className → x.clsver = e.clsver → x = si) ∧ m ∈ si.elems ∧
    (∀ x ∈ si.elems, x.element.named.name = m.element.named.name → x = m) ∧
    MemberName b.data.named.name m.element.named.name ∧ m.element.ename = b! "vector<int>" ∧
    Lists r b.data l [vectorBasket] ∧
    Hold [vectorBasket] (fun p : List Byte × (Ty.vec .i32).Val => p.1 ++ marshalled (.vec .i32) p.2)
      [[([64, 0, 0, 14, 0, 9], [(7 : Int), -1]), ([64, 0, 0, 6, 0, 9], [])]] ∧
    ∀ top, b.asIter r top (some (Ty.vec .i32).rdClassNames) (Ty.vec .i32).unmarshal = .error (.err .typeMismatch) ∧
      b.asIter r top (some (Ty.vec .f32).rdClassNames) (Ty.vec .f32).unmarshal = .ok [[(7 : Nat), 0xFFFFFFFF], []] := by
  refine ⟨eventReader [eventRecord 1 (b! "vector<int>"), eventRecord 2 (b! "vector<float>")], hitsBranch 1, _,
    eventRecord 1 (b! "vector<int>"), _, _, rfl, by decide, rfl, rfl, by decide,
    List.mem_cons_of_mem _ (List.mem_cons_self ..), by decide, hits_name, rfl, hits_listed 1 _, hits_hold, fun top => ?_⟩
  have hn : (hitsBranch 1).itemTypeName (eventReader [eventRecord 1 (b! "vector<int>"), eventRecord 2 (b! "vector<float>")]) top =
      .ok (b! "vector<float>") := by
    have : (hitsBranch 1).itemTypeName (eventReader [eventRecord 1 (b! "vector<int>"), eventRecord 2 (b! "vector<float>")]) top =
        .ok (cleanTypeName (b! "vector<float>")) := rfl
    rw [this]
    exact congrArg Except.ok (by decide +kernel)
  rw [asIter_named hn, asIter_named hn, if_neg (by decide), if_pos (by decide)]
  refine ⟨rfl, ?_⟩
  refine C60_vectors (t := .f32) _ (hitsBranch 1) rfl rfl _ rfl 6 rfl _ ⟨_, _, _, _, rfl⟩ [vectorBasket] (hits_listed 1 _)
    (by decide) [[([64, 0, 0, 14, 0, 9], [(7 : Nat), 0xFFFFFFFF]), ([64, 0, 0, 6, 0, 9], [])]]
    (Alike.cons (by decide +kernel) Alike.nil) ?_
  intro g hg p hp
  simp only [List.mem_cons, List.not_mem_nil, or_false] at hg
  subst hg
  simp only [List.mem_cons, List.not_mem_nil, or_false] at hp
  rcases hp with rfl | rfl
  · exact ⟨⟨by decide, rfl⟩, rfl, by decide, by decide⟩
  · exact ⟨⟨by decide, rfl⟩, rfl, by decide, by decide⟩

/-! ### A file -/

/-- The branch of `hits` as ROOT writes it. -/
def hitsRoot : RootBranch :=
  .mk { addr := 1, vers := 12, leaves := [{ addr := 2, leaf := .element 1 { len := 1 } 0 300 }], kept := [none],
        data := { named := { name := b! "ev.sub[2].hits" }, entries := 2, writeBasket := 1, maxBaskets := 10,
                  basketBytes := [101, 0, 0, 0, 0, 0, 0, 0, 0, 0], basketSeek := [0, 0, 0, 0, 0, 0, 0, 0, 0, 0],
                  basketEntry := [0, 2, 0, 0, 0, 0, 0, 0, 0, 0] },
        elem := some { elem := { className := b! "Event", stype := 300, clsver := 1 } } } []

def hitsTree : RootTree := { rootTree with branches := [hitsRoot], leaves := [300] }

theorem hitsTree_ok : hitsTree.Ok := by
  obtain ⟨h1, h2, h3, -, h5, h6, h7⟩ := rootTree_ok
  have hnone : PointerOk none := fun _ h => by cases h
  refine ⟨h1, h2, by decide, ?_, by decide, by decide, fun n hn => h7 n ?_⟩
  · show RootBranch.OkAll [hitsRoot]
    rw [RootBranch.OkAll, RootBranch.OkAll, hitsRoot, RootBranch.Ok, RootBranch.OkAll]
    refine ⟨⟨?_, by decide, trivial⟩, trivial⟩
    refine ⟨by decide, by decide, by decide, by decide, by decide, by decide, by decide, by decide, by decide, by decide,
      by decide, by decide, by decide, by decide, by decide, by decide, ?_, by decide, ?_, by decide, by decide, by decide,
      by decide, by decide, by decide, by decide, by decide, fun e he => ?_⟩
    · intro x hx
      simp only [List.mem_cons, List.not_mem_nil, or_false] at hx
      subst hx
      exact ⟨⟨rfl, ⟨by decide, by decide, by decide, by decide, by decide, rfl⟩, by decide, by decide⟩, hnone⟩
    · intro a k hk
      simp at hk
    · cases he
      exact ⟨by decide, ⟨by decide, by decide, by decide, by decide, by decide, by decide, by decide, by decide, by decide⟩,
        hnone, hnone⟩
  · have hn : n ∈ [300] := hn
    show n ∈ [300, 600, 900]
    simp only [List.mem_cons, List.not_mem_nil, or_false] at hn
    simp [hn]

theorem hitsTree_length : (match hitsTree.write (WBuffer.holding 50 []) with | .ok (_, w) => w.p.length | .error _ => 0) < 10000 := by
  decide +kernel

/-- The file with the basket, the record `bs` of the tree behind it, and the records of two classes. -/
def hitsFile (bs : List Byte) : FileR :=
  { header := {}, img := vectorBasket.record ++ List.replicate 50 0 ++ bs
    sinfos := [otherRecord, eventRecord 1 (b! "vector<int>")]
    dir := { keys := [{ name := b! "t", cls := b! "TTree", seekKey := 101, keyLen := 50, nBytes := 50 + bs.length, objLen := bs.length }] } }

theorem hitsTree_in : ∃ bs, hitsTree.In twelveDec (hitsFile bs) (b! "t") := by
  obtain ⟨bs, w, h1, h2, -⟩ := C61_record hitsTree hitsTree_ok 50 [] 1 (by decide)
  rw [List.nil_append] at h2
  have hl := hitsTree_length
  rw [h1] at hl
  have hl : w.p.length < 10000 := hl
  rw [h2] at hl
  have h151 : (vectorBasket.record ++ List.replicate 50 0).length = 151 := by
    decide +kernel
  refine ⟨bs, hitsTree_ok, { key := { name := b! "t", cls := b! "TTree", seekKey := 101, keyLen := 50, nBytes := 50 + bs.length, objLen := bs.length } },
    bs, ⟨rfl, (by decide : (0 : Int) ≤ 101), (by decide : (0 : Int) ≤ 50), ⟨(by decide : InI 8 101), ?_⟩, rfl, fun _ => ⟨rfl, ?_⟩, fun z hz => by cases hz⟩,
    ⟨_, _, h1, h2⟩, rfl, ?_⟩
  · unfold InI
    rw [show ((256 ^ 4 : Nat) : Int) = 2 ^ 32 from rfl]
    dsimp only
    omega
  · show bs <+: (vectorBasket.record ++ List.replicate 50 0 ++ bs).drop 151
    rw [← h151, List.drop_left]
    exact List.prefix_refl _
  · show 50 + bs.length < 2 ^ 30
    omega

theorem hitsRoot_filled (bs : List Byte) :
    hitsRoot.Filled ((hitsFile bs).reader twelveDec) (.element 1 { len := 1 } 0 300) [vectorBasket] := by
  refine ⟨rfl, rfl, by decide, rfl, rfl, rfl, fun x hx => ?_⟩
  have h := (hits_listed 1 []).there x hx
  refine ⟨h.1, List.IsPrefix.trans h.2 ?_⟩
  show vectorBasket.record.drop _ <+: (vectorBasket.record ++ List.replicate 50 0 ++ bs).drop _
  rw [List.append_assoc, List.drop_append]
  exact List.prefix_append _ _

/-- The vectors of the member, from the file. -/
example : ∃ f td branches x, FileR.getTree twelveDec 4 f (b! "t") = .ok (td, branches, none) ∧ x ∈ branchesR branches ∧
    x.name = b! "ev.sub[2].hits" ∧ ∀ top, x.asIter (f.reader twelveDec) top (some (Ty.vec .i32).rdClassNames)
      (Ty.vec .i32).unmarshal = .ok [[(7 : Int), -1], []] := by
  obtain ⟨bs, h⟩ := hitsTree_in
  have hin : hitsRoot ∈ RootBranch.listAll hitsTree.branches := by
    show hitsRoot ∈ RootBranch.listAll [hitsRoot]
    rw [RootBranch.listAll, hitsRoot, RootBranch.listing]
    simp
  have hmb : MemberBranch (hitsFile bs).sinfos hitsRoot.seen 300
      (.stl { named := { name := b! "hits" }, ename := b! "vector<int>" } .vector (.named .int)) := by
    obtain ⟨-, h2, h3, h4⟩ := hits_member
    rw [hitsRoot, RootBranch.seen, RootBranch.seenAll]
    exact ⟨rfl, h2, h3, h4⟩
  obtain ⟨td, brs, x, h1, h2, h3, -, h5⟩ := C73_file_partial hitsTree twelveDec _ _ h 4 (by decide) hitsRoot hin hmb trivial
    (s := b! "int") (t := .i32) (by decide) [0] rfl rfl _ _ (hitsRoot_filled bs) (by decide) _ hits_hold hits_ok
  exact ⟨_, td, brs, x, h1, h2, h3, h5⟩

end Verif
