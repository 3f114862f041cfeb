import Verif.Lemmas.MadeStorable
import Verif.Props.BranchLookup
import Verif.Spec.DemoTree
/-
C21 and C22: a tree written to a file is found again, with its branches, and iterating over a branch
gives the values of its column.
-/
namespace Verif

section
variable {env : Env} {path tn : Str} {ids : Nat} {before after : List Op} {cb : Nat} {cols : List Column}
  {places : Places} {f0 f1 f2 f f' : FileW}

theorem keyLen_short {n t c : Str} (h : n.length + t.length + c.length ≤ 32700) : kl n t c ≤ 32767 := by
  have h1 := tstringSizeof_le n
  have h2 := tstringSizeof_le t
  have h3 := tstringSizeof_le c
  unfold kl keyLenFor
  simp only [Bool.or_self, Bool.false_eq_true, if_false]
  split <;> omega

theorem asIter_of {α} {r : Reader} {top : Bool} {names : List Str} {func : Rd α} {b : Branch} {n : Str}
    (h : b.itemTypeName r top = .ok n) : b.asIter r top (some names) func =
      if n ∈ names then b.getBasket r func else .error (.err .typeMismatch) := by
  unfold Branch.asIter
  dsimp only
  rw [Res.bind_ok h]
  show (if names.contains n = true then _ else _) = _
  simp only [List.contains_iff_mem]

/-- The branch has the description the column was given when it was made. -/
def Column.MadeAs (c : Column) (b : Branch) : Prop :=
  ∃ l0 l, Leaf.new c.ty c.name = .ok l0 ∧ LeafLike l0 l ∧ b.data.leaves = [l] ∧ b.elem = c.ty.elemOf ∧
    b.data.named.title = c.name ++ b! "/" ++ c.ty.rootCode ∧ ∀ e, c.ty = .vec e → e.stlContent ≠ none

/-- The branch of a column, as it is in the file. -/
theorem DoneAt.read {g : FileW} {c : Column} {b : WBranch} (hd : DoneAt tn path g c b) (hc : c.Holds tn)
    (htn : utf8 tn = true) {r : Reader} (hl : Kept path g r.img)
    (hvec : ∀ e, c.ty = .vec e → ∀ cn, c.ty.wrClassName = .ok cn → VectorRecords cn r.sinfos) :
    let b' := b.branch.expected b.branch.data.writeBasket.toNat
    b'.name = c.name ∧ b'.branches = [] ∧ b'.data.entries = c.vals.length ∧
      b'.getBasket r c.ty.unmarshal = .ok c.vals ∧
      ((91 : Byte) ∉ c.name → (93 : Byte) ∉ c.name → ∀ top, ∃ n ∈ c.ty.rdClassNames,
        b'.itemTypeName r top = .ok n ∧ (c.ty = .string → n = b! "char*")) ∧ c.MadeAs b' := by
  obtain ⟨b0, l0, done, hm, hcd⟩ := hd
  have ht := hcd.tables
  obtain ⟨l, hleaf, hlike⟩ := ht.leaf
  have hdata := ht.data
  rw [hm.branch] at hdata
  have hwb : b.branch.data.writeBasket.toNat = done.length := by rw [hdata]; rfl
  intro b'
  have e1 : b'.data.leaves = [l] := hleaf
  have e2 : b'.data.basketSeek = done.map Done.seek := by
    show b.branch.data.basketSeek.take _ = _
    rw [hwb, hdata]
    exact List.take_of_length_le (by simp)
  have e3 : b'.data.basketBytes = done.map Done.bytes := by
    show b.branch.data.basketBytes.take _ = _
    rw [hwb, hdata]
    exact List.take_of_length_le (by simp)
  have e4 : b'.data.baskets = [] := by
    show b.branch.data.baskets = _
    rw [hdata]; rfl
  have e5 : b'.elem = c.ty.elemOf := by
    show b.branch.elem = _
    rw [ht.elem, hm.branch]; rfl
  have e6 : b'.data.named.name = c.name := by
    show b.branch.data.named.name = _
    rw [hdata]; rfl
  have hname : b0.name = c.name := hcd.name
  have hshort := hc.short
  have hk : bkl c.name tn ≤ 32767 := keyLen_short (by
    have : (b! "TBasket").length = 7 := rfl
    omega)
  have hget : b'.getBasket r c.ty.unmarshal = .ok c.vals := by
    refine getBasket_done hl hm.leaf hlike e1 e2 e3 e4 rfl e5 (by rw [← hname]; exact ht.stored) ht.few hcd.taken
      hc.values ?_ hc.text htn hk rfl ?_
    · intro e he v hv
      have := hc.vectors e he v hv
      have h2 : (marshalled c.ty v).length ≤ (entryBytes c.ty v).length - 6 := by
        obtain ⟨ty, nm, vs⟩ := c
        dsimp only at he v
        subst he
        simp only [entryBytes, List.length_append, beBytes_length]
        omega
      omega
    · intro e he
      obtain ⟨cn, hcn, -⟩ := vectorClass (hm.vec e he)
      obtain ⟨be, h1, -, -, h2⟩ := vector_header (hm.vec e he) hcn (hvec e he cn (by rw [he]; exact hcn)) b'.data.named.name
      exact ⟨be, by rw [e5, he]; exact h1, h2⟩
  refine ⟨e6, rfl, ?_, hget, ?_, l0, l, hm.leaf, hlike, e1, e5, ?_, hm.vec⟩
  · show b.branch.data.entries = _
    rw [hdata]
  · intro h1 h2 top
    obtain ⟨n, hn, hmem, hstr⟩ := itemType_made hm.leaf hlike e1 e5 rfl h1 h2 hc.arrays
      (fun e he => ⟨hm.vec e he, hvec e he⟩) top (r := r)
    exact ⟨n, hmem, hn, hstr⟩
  · show b.branch.data.named.title = _
    rw [hdata]; rfl

/-- The sizes a branch announces are those of its baskets in the file, and more than its entries take. -/
theorem DoneAt.sizes {g : FileW} {c : Column} {b : WBranch} (hd : DoneAt tn path g c b) :
    let b' := b.branch.expected b.branch.data.writeBasket.toNat
    b'.data.totBytes = b'.data.basketBytes.sum ∧ b'.data.zipBytes = b'.data.basketBytes.sum ∧
      (c.bytes : Int) < b'.data.totBytes := by
  obtain ⟨b0, l0, done, hm, hcd⟩ := hd
  have ht := hcd.tables
  obtain ⟨h1, h2⟩ := ht.sum
  have hdata := ht.data
  intro b'
  have e3 : b'.data.basketBytes = done.map Done.bytes := by
    show b.branch.data.basketBytes.take b.branch.data.writeBasket.toNat = _
    rw [hdata]
    exact List.take_of_length_le (by simp)
  have e4 : b'.data.totBytes = (done.map Done.bytes).sum := h1
  have e5 : b'.data.zipBytes = (done.map Done.bytes).sum := h2
  refine ⟨by rw [e3, e4], by rw [e3, e5], ?_⟩
  rw [e4]
  have hb : c.bytes = ((done.map Done.es).flatten.map List.length).sum := by
    rw [hcd.taken, List.map_map]; rfl
  rw [hb]
  have hd : ∀ d ∈ done, (d.es.flatten.length : Int) < d.bytes := by
    intro d hd
    obtain ⟨i, hi⟩ := List.getElem?_of_mem hd
    have h7 := (ht.stored i d hi).bytes
    have h4 : d.es.flatten.length ≤ (basketPayload c.ty.varies (bkl b0.name tn) d.es).length := by
      unfold basketPayload
      simp
    have h26 : 26 ≤ bkl b0.name tn := (keyLenFor_ge b0.name tn (b! "TBasket") false false).1
    omega
  have hne := hcd.some
  clear hb e3 e4 e5 h1 h2 hdata ht hcd hm
  have hle : ∀ l : List Done, (∀ d ∈ l, (d.es.flatten.length : Int) < d.bytes) →
      ((((l.map Done.es).flatten.map List.length).sum : Nat) : Int) + l.length ≤ (l.map Done.bytes).sum := by
    intro l
    induction l with
    | nil => intro _; exact Int.le_refl _
    | cons d l ih =>
      intro h
      have h1 := h d (List.mem_cons_self ..)
      have h2 := ih fun d hd => h d (List.mem_cons_of_mem _ hd)
      simp only [List.map_cons, List.flatten_cons, List.map_append, List.sum_append, List.sum_cons, List.length_cons]
      rw [List.length_flatten] at h1
      omega
  have := hle done hd
  have : 0 < done.length := List.length_pos_iff.2 hne
  omega

/-- A tree written in a session is found again. -/
theorem tree_found (hw : TreeWritten env path ids before after tn cb cols places f0 f1 f2 f f')
    (hh : TreeHolds env path before after tn cols places f0 f2 f') (dec : Decoders) (fuel : Nat)
    (hfuel : 3 ≤ fuel) :
    ∃ t ops g g' sis r, TreeStored env path tn places cols f1 f2 t ops g g' sis ∧
      openFile dec fuel (image f'.trace) = .ok r ∧ (r.reader dec).img = image f'.trace ∧
      r.getTree dec fuel tn = .ok (t.data.expected,
        t.branches.map fun b => b.branch.expected b.branch.data.writeBasket.toNat, none) ∧
      ∀ c ∈ cols, ∀ e, c.ty = .vec e → ∀ cn, c.ty.wrClassName = .ok cn → VectorRecords cn (r.reader dec).sinfos := by
  obtain ⟨hi0, hk0, hs0, t, ops, g, g', sis, hs⟩ := hw.stored hh
  have hwr := hs.written hw
  have hho := hs.holds hw hh
  have hacc := hs.accepted hw
  obtain ⟨-, -, hi, -, s, i, buf, hcl, -, es, -, hop⟩ := hwr.opened hho
  have hjp : (acceptedPuts env f0 (treeOps before ops after tn (t.putObj places) sis))[(acceptedPuts env f0 before).length]? =
      some (tn, t.putObj places) := by
    rw [hacc, List.getElem?_append_right (Nat.le_refl _), Nat.sub_self]; rfl
  obtain ⟨r, k, n, w, ⟨k0, hk0', hbuf, hkl⟩, hr, -, -, -, -, -, hm, -, hobj⟩ :=
    last_key hwr hho (hs.few hw hh) dec fuel hfuel hjp (by
      intro i q hij hq
      rw [hacc, List.getElem?_append_right (by omega)] at hq
      obtain ⟨m, hm⟩ : ∃ m, i - (acceptedPuts env f0 before).length = m + 1 := ⟨i - (acceptedPuts env f0 before).length - 1, by omega⟩
      rw [hm, List.getElem?_cons_succ] at hq
      exact hh.last q (List.mem_of_getElem? hq)) hh.plain
  have hr2 := hr.symm.trans (hop dec fuel hfuel)
  injection hr2 with hr2
  have hko := hi.keys k0 (List.mem_of_getElem? hk0')
  -- the record of the tree is short
  have hsmall : k.keyLen.toNat + w.p.length < 2 ^ 30 := by
    have hkeys : f'.dir.keys = f.dir.keys := by rw [hcl.file]; rfl
    have hkn : k0.name = tn := by
      have := keys_accepted hi0 hk0 hwr.runs
      obtain ⟨k1, hk1, e⟩ := getElem?_of_map this hjp
      rw [hk0'] at hk1
      cases hk1
      injection e
    have h1 := hh.record k0 (by rw [hkeys]; exact List.mem_of_getElem? hk0') hkn
    have h2 : k0.nBytes = kl k0.name k0.title k0.cls + k0.buffer.length := by rw [hko.form]; rfl
    have h3 : k.keyLen = kl k0.name k0.title k0.cls := by rw [hkl]; show k0.keyLen = _; rw [hko.form]; rfl
    have h26 : 26 ≤ kl k0.name k0.title k0.cls := (keyLenFor_ge _ _ _ false false).1
    rw [← hbuf, h3]
    omega
  have hplaced := hs.placed hh
  have hrt := C32_tree_record t.data (placeBranches places 0 t.branches) PlacedBranch.written (hs.dataStorable hh)
    hplaced (fuel - 3) k.keyLen.toNat []
  rw [show fuel - 3 + 3 = fuel by omega] at hrt
  obtain ⟨bs, w', hm', hp', -, hread⟩ := hrt
  have hww : w' = w := by
    have h1 : t.data.marshal (placeBranches places 0 t.branches) (WBuffer.new k.keyLen.toNat) = .ok (bs.length, w') := hm'
    have h2 : t.data.marshal (placeBranches places 0 t.branches) (WBuffer.new k.keyLen.toNat) = .ok (n, w) := hm
    rw [h1] at h2
    injection h2 with h2
    injection h2
  subst hww
  rw [List.nil_append] at hp' hread
  obtain ⟨r', hr', -⟩ := hread (by rw [← hp']; exact hsmall) []
  rw [List.append_nil, ← hp', List.length_nil] at hr'
  have hobj' : r.getObject dec fuel tn = .ok (.tree t.data.expected
      ((placeBranches places 0 t.branches).map fun b => b.branch.expected b.written) none) := by
    rw [hobj]
    show readWith (do
      let t ← TreeData.unmarshal (readAny fuel)
      pure (Obj.tree t.1 t.2.1 t.2.2)) _ _ = _
    refine readWith_of (r := r') ?_
    rw [Rd.bind_ok hr']
    rfl
  have hmap : ((placeBranches places 0 t.branches).map fun b => b.branch.expected b.written) =
      t.branches.map fun b => b.branch.expected b.branch.data.writeBasket.toNat :=
    placeBranches_map places (fun b => b.expected b.data.writeBasket.toNat) t.branches 0
  refine ⟨t, ops, g, g', sis, r, hs, hr, by rw [hr2]; rfl, ?_, fun c hc e he cn hcn => ?_⟩
  · unfold FileR.getTree
    rw [Res.bind_ok hobj', hmap]
  · rw [hr2]
    exact hs.vectors hw hh hi0 hs0 hc he hcn

/-- A tree written in a session is found again: its name and number of entries, one branch per column
in the order of the columns, each with the name and the number of values of its column, and iterating
over the branch gives these values; with the sizes that are announced. -/
theorem tree_reopened_sizes (hw : TreeWritten env path ids before after tn cb cols places f0 f1 f2 f f')
    (hh : TreeHolds env path before after tn cols places f0 f2 f') (dec : Decoders) (fuel : Nat)
    (hfuel : 3 ≤ fuel) :
    ∃ (r : FileR) (td : TreeData) (bs : List Branch), openFile dec fuel (image f'.trace) = .ok r ∧ r.getTree dec fuel tn = .ok (td, bs, none) ∧
      (td.named.name = tn ∧ td.entries = longest cols ∧ td.totBytes = ((cols.map Column.bytes).sum : Nat) ∧
        td.zipBytes = 0) ∧ bs.length = cols.length ∧
      ∀ (i : Nat) (c : Column) (b : Branch), cols[i]? = some c → bs[i]? = some b →
        (b.data.totBytes = b.data.basketBytes.sum ∧ b.data.zipBytes = b.data.basketBytes.sum ∧
          (c.bytes : Int) < b.data.totBytes) ∧
        b.name = c.name ∧ b.branches = [] ∧ b.data.entries = c.vals.length ∧
        b.getBasket (r.reader dec) c.ty.unmarshal = .ok c.vals ∧
        ((91 : Byte) ∉ c.name → (93 : Byte) ∉ c.name → ∀ top, ∃ n ∈ c.ty.rdClassNames,
          b.itemTypeName (r.reader dec) top = .ok n ∧ (c.ty = .string → n = b! "char*")) ∧ c.MadeAs b := by
  obtain ⟨t, ops, g, g', sis, r, hs, hr, hr2, hget, hvec⟩ := tree_found hw hh dec fuel hfuel
  obtain ⟨tot, ⟨-, htot⟩, hd⟩ := hs.data
  refine ⟨r, t.data.expected, t.branches.map fun b => b.branch.expected b.branch.data.writeBasket.toNat, hr,
    hget, ⟨?_, ?_, ?_, ?_⟩, ?_, ?_⟩
  · show t.data.named.name = _
    rw [hd]; rfl
  · show t.data.entries = _
    rw [hd]
  · show t.data.totBytes = _
    rw [hd, htot]
  · show t.data.zipBytes = _
    rw [hd]; rfl
  · rw [List.length_map]; exact hs.branches.length.symm
  · intro i c b hc hb
    rw [List.getElem?_map] at hb
    obtain ⟨wb, hwb, rfl⟩ := Option.map_eq_some_iff.1 hb
    have hcm := List.mem_of_getElem? hc
    exact ⟨(hs.branches.get hc hwb).sizes, (hs.branches.get hc hwb).read (hh.columns c hcm) hh.treeText
      (hr2 ▸ (Later.close (hs.tail hw) hw.close).kept hs.inv) (hvec c hcm)⟩

/-- The same without the sizes. -/
theorem tree_reopened (hw : TreeWritten env path ids before after tn cb cols places f0 f1 f2 f f')
    (hh : TreeHolds env path before after tn cols places f0 f2 f') (dec : Decoders) (fuel : Nat)
    (hfuel : 3 ≤ fuel) :
    ∃ (r : FileR) (td : TreeData) (bs : List Branch), openFile dec fuel (image f'.trace) = .ok r ∧ r.getTree dec fuel tn = .ok (td, bs, none) ∧
      td.named.name = tn ∧ td.entries = longest cols ∧ bs.length = cols.length ∧
      ∀ (i : Nat) (c : Column) (b : Branch), cols[i]? = some c → bs[i]? = some b →
        b.name = c.name ∧ b.branches = [] ∧ b.data.entries = c.vals.length ∧
        b.getBasket (r.reader dec) c.ty.unmarshal = .ok c.vals ∧
        ((91 : Byte) ∉ c.name → (93 : Byte) ∉ c.name → ∀ top, ∃ n ∈ c.ty.rdClassNames,
          b.itemTypeName (r.reader dec) top = .ok n ∧ (c.ty = .string → n = b! "char*")) ∧ c.MadeAs b := by
  obtain ⟨r, td, bs, h1, h2, ⟨h3, h4, -⟩, h5, h⟩ := tree_reopened_sizes hw hh dec fuel hfuel
  exact ⟨r, td, bs, h1, h2, h3, h4, h5, fun i c b hc hb => (h i c b hc hb).2⟩

theorem lookup_flat {bs : List Branch} (hsub : ∀ b ∈ bs, b.branches = []) (hnd : (bs.map Branch.name).Nodup)
    {b : Branch} (hb : b ∈ bs) : lookupBranch bs b.name = some b := by
  induction bs with
  | nil => cases hb
  | cons x xs ih =>
    unfold lookupBranch
    rw [List.map_cons, List.nodup_cons] at hnd
    rcases List.mem_cons.1 hb with rfl | hb
    · rw [if_pos rfl]
    · have hne : x.name ≠ b.name := fun h => hnd.1 (h ▸ List.mem_map.2 ⟨b, hb, rfl⟩)
      rw [if_neg hne]
      have : x.lookup b.name = none := by
        have h := hsub x (List.mem_cons_self ..)
        cases x with
        | mk d e ss =>
          have : ss = [] := h
          subst this
          rfl
      rw [this]
      exact ih (fun y hy => hsub y (List.mem_cons_of_mem _ hy)) hnd.2 hb

/-- The columns of a tree, by name; they are read with their own type and with no other. -/
theorem column_reopened (hw : TreeWritten env path ids before after tn cb cols places f0 f1 f2 f f')
    (hh : TreeHolds env path before after tn cols places f0 f2 f') (hnd : (cols.map fun c => c.name).Nodup)
    (dec : Decoders) (fuel : Nat) (hfuel : 3 ≤ fuel) :
    ∃ (r : FileR) (td : TreeData) (bs : List Branch), openFile dec fuel (image f'.trace) = .ok r ∧
      r.getTree dec fuel tn = .ok (td, bs, none) ∧
      ∀ c ∈ cols, (91 : Byte) ∉ c.name → (93 : Byte) ∉ c.name → ∃ b, lookupBranch bs c.name = some b ∧
        ∀ top, b.asIter (r.reader dec) top (some c.ty.rdClassNames) c.ty.unmarshal = .ok c.vals ∧
          ∀ t, t ≠ c.ty → b.asIter (r.reader dec) top (some t.rdClassNames) t.unmarshal =
            .error (.err .typeMismatch) := by
  obtain ⟨r, td, bs, h1, h2, -, -, hlen, h⟩ := tree_reopened hw hh dec fuel hfuel
  have hn : bs.map Branch.name = cols.map fun c => c.name := by
    refine List.ext_getElem? fun i => ?_
    rw [List.getElem?_map, List.getElem?_map]
    rcases Nat.lt_or_ge i cols.length with hi | hi
    · rw [List.getElem?_eq_getElem hi, List.getElem?_eq_getElem (hlen ▸ hi)]
      have := h i _ _ (List.getElem?_eq_getElem hi) (List.getElem?_eq_getElem (hlen ▸ hi))
      exact congrArg some this.1
    · rw [List.getElem?_eq_none hi, List.getElem?_eq_none (hlen ▸ hi)]
      rfl
  refine ⟨r, td, bs, h1, h2, fun c hc hl hr => ?_⟩
  obtain ⟨i, hi, rfl⟩ := List.getElem_of_mem hc
  have hi' : i < bs.length := hlen ▸ hi
  obtain ⟨e1, -, -, e4, e5, -⟩ := h i _ _ (List.getElem?_eq_getElem hi) (List.getElem?_eq_getElem hi')
  refine ⟨bs[i], ?_, fun top => ?_⟩
  rotate_left
  · obtain ⟨n, hn, hi, -⟩ := e5 hl hr top
    refine ⟨?_, fun t ht => ?_⟩
    · rw [asIter_of hi, if_pos hn]; exact e4
    · rw [asIter_of hi, if_neg fun h' => ht (rdClassNames_disjoint h' hn)]
  rw [← e1]
  refine lookup_flat ?_ (hn ▸ hnd) (List.getElem_mem _)
  intro b hb
  obtain ⟨j, hj, rfl⟩ := List.getElem_of_mem hb
  exact (h j _ _ (List.getElem?_eq_getElem (hlen ▸ hj)) (List.getElem?_eq_getElem hj)).2.1

/-- C21: a column of a type of fixed size reads back as it was written, however many baskets it took. -/
theorem C21_fixed_size (hw : TreeWritten env path ids before after tn cb cols places f0 f1 f2 f f')
    (hh : TreeHolds env path before after tn cols places f0 f2 f') (hnd : (cols.map fun c => c.name).Nodup)
    (dec : Decoders) (fuel : Nat) (hfuel : 3 ≤ fuel) :
    ∃ (r : FileR) (td : TreeData) (bs : List Branch), openFile dec fuel (image f'.trace) = .ok r ∧
      r.getTree dec fuel tn = .ok (td, bs, none) ∧
      ∀ c ∈ cols, c.ty ≠ .string → (∀ e, c.ty ≠ .vec e) → (91 : Byte) ∉ c.name → (93 : Byte) ∉ c.name →
        ∃ b, lookupBranch bs c.name = some b ∧
          ∀ top, b.asIter (r.reader dec) top (some c.ty.rdClassNames) c.ty.unmarshal = .ok c.vals := by
  obtain ⟨r, td, bs, h1, h2, h⟩ := column_reopened hw hh hnd dec fuel hfuel
  refine ⟨r, td, bs, h1, h2, fun c hc _ _ hl hr => ?_⟩
  obtain ⟨b, hb, hi⟩ := h c hc hl hr
  exact ⟨b, hb, fun top => (hi top).1⟩

/-- C22: the same for columns of strings and of vectors. -/
theorem C22_varying_size (hw : TreeWritten env path ids before after tn cb cols places f0 f1 f2 f f')
    (hh : TreeHolds env path before after tn cols places f0 f2 f') (hnd : (cols.map fun c => c.name).Nodup)
    (dec : Decoders) (fuel : Nat) (hfuel : 3 ≤ fuel) :
    ∃ (r : FileR) (td : TreeData) (bs : List Branch), openFile dec fuel (image f'.trace) = .ok r ∧
      r.getTree dec fuel tn = .ok (td, bs, none) ∧
      ∀ c ∈ cols, (c.ty = .string ∨ ∃ e, c.ty = .vec e) → (91 : Byte) ∉ c.name → (93 : Byte) ∉ c.name →
        ∃ b, lookupBranch bs c.name = some b ∧
          ∀ top, b.asIter (r.reader dec) top (some c.ty.rdClassNames) c.ty.unmarshal = .ok c.vals := by
  obtain ⟨r, td, bs, h1, h2, h⟩ := column_reopened hw hh hnd dec fuel hfuel
  refine ⟨r, td, bs, h1, h2, fun c hc _ hl hr => ?_⟩
  obtain ⟨b, hb, hi⟩ := h c hc hl hr
  exact ⟨b, hb, fun top => (hi top).1⟩

/-- C38, refusal: when none of the names of the type asked for is the item type of the branch, the answer
is a type mismatch, whatever the branch and the file. -/
theorem C38_refused {α} (r : Reader) (top : Bool) (names : List Str) (func : Rd α) (b : Branch) (n : Str)
    (hn : b.itemTypeName r top = .ok n) (h : n ∉ names) :
    b.asIter r top (some names) func = .error (.err .typeMismatch) := by
  rw [asIter_of hn, if_neg h]

/-- C38 for written trees: a branch is read with the type it was written with, and asking for any other
type is a type mismatch.  Missing: branches whose name has square brackets, see `C38_false`. -/
theorem C38_own_type_partial (hw : TreeWritten env path ids before after tn cb cols places f0 f1 f2 f f')
    (hh : TreeHolds env path before after tn cols places f0 f2 f') (hnd : (cols.map fun c => c.name).Nodup)
    (dec : Decoders) (fuel : Nat) (hfuel : 3 ≤ fuel) :
    ∃ (r : FileR) (td : TreeData) (bs : List Branch), openFile dec fuel (image f'.trace) = .ok r ∧
      r.getTree dec fuel tn = .ok (td, bs, none) ∧
      ∀ c ∈ cols, (91 : Byte) ∉ c.name → (93 : Byte) ∉ c.name → ∃ b, lookupBranch bs c.name = some b ∧ ∀ top,
        (∃ vals, b.asIter (r.reader dec) top (some c.ty.rdClassNames) c.ty.unmarshal = .ok vals) ∧
        ∀ t, t ≠ c.ty → b.asIter (r.reader dec) top (some t.rdClassNames) t.unmarshal =
            .error (.err .typeMismatch) := by
  obtain ⟨r, td, bs, h1, h2, h⟩ := column_reopened hw hh hnd dec fuel hfuel
  refine ⟨r, td, bs, h1, h2, fun c hc hl hr => ?_⟩
  obtain ⟨b, hb, hi⟩ := h c hc hl hr
  exact ⟨b, hb, fun top => ⟨⟨_, (hi top).1⟩, (hi top).2⟩⟩

/-- C38 fails: a branch of numbers named `a[3]` is taken for one of arrays of three, whatever was written to
it. It cannot be iterated over with the type it was written with. -/
theorem C38_false : ∃ b : WBranch, ∃ items : List (Option (Wr Nat)),
    WBranch.new .i32 (b! "a[3]") items 0 = .ok (b, []) ∧ ∀ r top,
      b.branch.asIter r top (some Ty.i32.rdClassNames) Ty.i32.unmarshal = .error (.err .typeMismatch) ∧
      b.branch.itemTypeName r top = .ok (b! "int32_t[3]") :=
  ⟨_, [none], rfl, fun _ _ => ⟨rfl, rfl⟩⟩

end

/-! ### The hypotheses can be met -/

/-- The closed file. -/
def demoTreeClosed : FileW := (closeFile demoTreeEnv demoTreeRun.2).2

theorem demo_create : createFile (FileW.initial (b! "d.root") 10) = (.ok (), demoFile) :=
  ok_pair (by decide +kernel)

theorem demo_small : demoFile.Below2GB := below2GB_iff.1 (by decide +kernel)

theorem demo_checks : (below2GB demoTreeRun.2 && (isOk (closeFile demoTreeEnv demoTreeRun.2).1 &&
    (below2GB demoTreeClosed && (decide (demoTreeClosed.header.nBytesInfo < 2 ^ 30) &&
      (decide (demoTreeClosed.sinfos.length < 2 ^ 31) && (decide (demoTreeClosed.ids ≤ 1000) &&
        demoTreeClosed.dir.keys.all fun k => decide (k.nBytes < 2 ^ 30))))))) = true := by decide +kernel

theorem demo_small2 : demoTreeRun.2.Below2GB :=
  below2GB_iff.1 (Bool.and_eq_true_iff.1 demo_checks).1

theorem demo_close : Closes demoTreeEnv demoTreeRun.2 demoTreeClosed := by
  obtain ⟨h1, h2, -⟩ := by simpa only [Bool.and_eq_true] using (Bool.and_eq_true_iff.1 demo_checks).2
  exact ⟨ok_pair h1, below2GB_iff.1 h2⟩

theorem demo_session_written : TreeWritten demoTreeEnv (b! "d.root") 10 [] [] (b! "t") 2 demoCols demoPlaces
    demoFile demoFile demoTreeRun.2 demoTreeRun.2 demoTreeClosed where
  create := demo_create
  small := demo_small
  before := .nil
  tree := by
    obtain ⟨t', h⟩ := demo_tree_written
    exact ⟨demoTree, t', .of_columns demo_built, h⟩
  small2 := demo_small2
  after := .nil
  close := demo_close

theorem demo_sizes : demoTreeClosed.header.nBytesInfo < 2 ^ 30 ∧ demoTreeClosed.sinfos.length < 2 ^ 31 ∧
    demoTreeClosed.ids ≤ 1000 ∧ ∀ k ∈ demoTreeClosed.dir.keys, k.nBytes < 2 ^ 30 := by
  obtain ⟨-, -, -, h1, h2, h3, h4⟩ := by
    simpa only [Bool.and_eq_true, decide_eq_true_eq, List.all_eq_true] using demo_checks
  exact ⟨h1, h2, h3, h4⟩

theorem demo_columns : ∀ c ∈ demoCols, c.Holds (b! "t") := by
  intro c hc
  simp only [demoCols, List.mem_cons, List.not_mem_nil, or_false] at hc
  rcases hc with rfl | rfl | rfl
  · exact ⟨by decide, by decide, by decide +kernel, fun e he => (by cases he), fun n e he => (by cases he)⟩
  · exact ⟨by decide, by decide, by decide +kernel, fun e he => (by cases he), fun n e he => (by cases he)⟩
  · refine ⟨by decide, by decide, by decide +kernel, fun e he v hv => ?_, fun n e he => (by cases he)⟩
    rw [List.mem_singleton.1 hv]
    decide +kernel

theorem demo_session_holds : TreeHolds demoTreeEnv (b! "d.root") [] [] (b! "t") demoCols demoPlaces demoFile
    demoTreeRun.2 demoTreeClosed where
  process := {
    dictionary := by
      intro name vers s h
      simp only [demoTreeEnv] at h
      split at h
      · injection h with h
        rw [← h]
        exact ⟨⟨by decide, by decide⟩, by decide, by decide, fun e he => (by cases he), by decide⟩
      · cases h
    addresses := by intro i j h; simp only [demoTreeEnv] at h; omega }
  text := by decide
  short := by decide
  objects := by intro p hp; cases hp
  records := by intro op hop; cases hop
  listBytes := demo_sizes.1
  listLength := demo_sizes.2.1
  apart := by
    have := demo_sizes.2.2.1
    intro j
    show _ ≤ 2 * j + 1000
    omega
  fewPuts := by
    intro n
    refine Nat.le_trans List.count_le_length ?_
    decide
  treeText := by decide
  treeShort := by decide
  plain := by decide
  last := by intro p hp; cases hp
  columns := demo_columns
  few := by decide
  entries := by decide
  memory := by intro i; rfl
  distinct := by decide +kernel
  record := fun k hk _ => demo_sizes.2.2.2 k hk
  dictionary := by
    intro c hc e he cn hcn n v s hs
    simp only [demoTreeEnv] at hs
    split at hs
    · injection hs with hs
      rw [← hs]
      intro _ x hx
      cases hx
    · cases hs
  announced := by intro c hc e he cn hcn si hsi; cases hsi

/-- The three columns of the small tree read back. -/
example (dec : Decoders) : ∃ (r : FileR) (td : TreeData) (bs : List Branch) (x s v : Branch),
    openFile dec 3 (image demoTreeClosed.trace) = .ok r ∧ r.getTree dec 3 (b! "t") = .ok (td, bs, none) ∧
    lookupBranch bs (b! "x") = some x ∧ lookupBranch bs (b! "s") = some s ∧ lookupBranch bs (b! "v") = some v ∧
    x.asIter (r.reader dec) true (some Ty.i32.rdClassNames) Ty.i32.unmarshal = .ok [1, -2, 3, 4] ∧
    s.asIter (r.reader dec) true (some Ty.string.rdClassNames) Ty.string.unmarshal = .ok [b! "ab", b! ""] ∧
    v.asIter (r.reader dec) true (some (Ty.vec .f64).rdClassNames) (Ty.vec .f64).unmarshal = .ok [[1, 2]] := by
  obtain ⟨r, td, bs, h1, h2, h⟩ := column_reopened demo_session_written demo_session_holds (by decide) dec 3 (Nat.le_refl _)
  obtain ⟨x, hx, hx'⟩ := h ⟨.i32, b! "x", [1, -2, 3, 4]⟩ (by simp [demoCols]) (by decide) (by decide)
  obtain ⟨s, hs, hs'⟩ := h ⟨.string, b! "s", [b! "ab", b! ""]⟩ (by simp [demoCols]) (by decide) (by decide)
  obtain ⟨v, hv, hv'⟩ := h ⟨.vec .f64, b! "v", [[1, 2]]⟩ (by simp [demoCols]) (by decide) (by decide)
  exact ⟨r, td, bs, x, s, v, h1, h2, hx, hs, hv, (hx' true).1, (hs' true).1, (hv' true).1⟩

/-- The numbers of the small tree are refused as strings. -/
example (dec : Decoders) : ∃ (r : FileR) (td : TreeData) (bs : List Branch) (x : Branch),
    openFile dec 3 (image demoTreeClosed.trace) = .ok r ∧ r.getTree dec 3 (b! "t") = .ok (td, bs, none) ∧
    lookupBranch bs (b! "x") = some x ∧
    x.asIter (r.reader dec) true (some Ty.string.rdClassNames) Ty.string.unmarshal = .error (.err .typeMismatch) := by
  obtain ⟨r, td, bs, h1, h2, h⟩ := C38_own_type_partial demo_session_written demo_session_holds (by decide) dec 3 (Nat.le_refl _)
  obtain ⟨x, hx, hx'⟩ := h ⟨.i32, b! "x", [1, -2, 3, 4]⟩ (by simp [demoCols]) (by decide) (by decide)
  exact ⟨r, td, bs, x, h1, h2, hx, (hx' true).2 .string (by decide)⟩

end Verif
