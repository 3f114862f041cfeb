import Verif.Props.Total
import Verif.Props.Described
import Verif.Lemmas.Dump
/-
C62: the programs `oxyroot-ls` and `oxyroot-dump` print what was written.
-/
namespace Verif

/-! ### One tree -/

theorem cells_of {t : Ty} {r : Reader} {top : Bool} {b : Branch} {vals : List t.Val} {n : Str} (hb : b.branches = [])
    (hn : n ∈ t.rdClassNames) (hi : b.itemTypeName r top = .ok n) (hx : b.getBasket r t.unmarshal = .ok vals) :
    t.dumpedAs.cells r top b = .ok (vals.map t.shown) := by
  have key : ∀ t : Ty, ∀ vals : List t.Val, n ∈ t.rdClassNames → b.getBasket r t.unmarshal = .ok vals →
      DumpTy.cells (.of t) r top b = .ok (vals.map fun v => ⟨.of t, v⟩) := by
    intro t vals hn hx
    unfold DumpTy.cells
    have : b.asIter r top (DumpTy.of t).classNames (DumpTy.of t).unmarshal = .ok vals := by
      show b.asIter r top (some t.rdClassNames) t.unmarshal = _
      rw [asIter_of hi, if_pos hn]; exact hx
    dsimp only
    rw [this]
    rfl
  cases t with
  | arr k e =>
    show DumpTy.cells (.sized k e) r top b = _
    unfold DumpTy.cells
    dsimp only
    rw [getBasket_sized hb hx]
    rfl
  | _ => exact key _ vals hn hx


theorem filter_columns (cols : List Column) (i : Nat) :
    (((cols.map fun c => if c.ty.isDumped then some (c.name, c.vals.map c.ty.shown) else none).filterMap id).map
      fun c => (⟨i, c.1, c.2[i]?⟩ : DumpLine)) =
    (cols.filter fun c => c.ty.isDumped).map fun c => ⟨i, c.name, c.vals[i]?.map c.ty.shown⟩ := by
  induction cols with
  | nil => rfl
  | cons c cs ih =>
    by_cases hd : c.ty.isDumped = true
    · rw [List.map_cons, if_pos hd, List.filterMap_cons_some (show id (some _) = some _ from rfl),
        List.filter_cons_of_pos (p := fun c : Column => c.ty.isDumped) hd, List.map_cons, List.map_cons, ih, List.getElem?_map]
    · rw [List.map_cons, if_neg hd, List.filterMap_cons_none (show id none = none from rfl),
        List.filter_cons_of_neg (p := fun c : Column => c.ty.isDumped) hd, ih]

section
variable {env : Env} {path : Str} {ids : Nat} {before after : List Op} {tn : Str} {cb : Nat} {cols : List Column}
  {places : Places} {f0 f1 f2 f f' : FileW}

theorem tree_shown (hw : TreeWritten env path ids before after tn cb cols places f0 f1 f2 f f')
    (hh : TreeHolds env path before after tn cols places f0 f2 f') (hsup : ∀ c ∈ cols, c.ty.isSupported = true)
    (hbr : ∀ c ∈ cols, (91 : Byte) ∉ c.name ∧ (93 : Byte) ∉ c.name) (dec : Decoders) (fuel : Nat) (hfuel : 3 ≤ fuel)
    (top : Branch → Bool) :
    ∃ (r : FileR) (td : TreeData) (bs : List Branch), openFile dec fuel (image f'.trace) = .ok r ∧
      r.getTree dec fuel tn = .ok (td, bs, none) ∧
      showTree (r.reader dec) top bs = .ok (cols.map Column.listed) ∧
      dumpTree (r.reader dec) top td.entries bs =
        .ok (dumpOf (longest cols) (cols.filter fun c => c.ty.isDumped)) := by
  obtain ⟨r, td, bs, h1, h2, -, hent, hlen, h⟩ := tree_reopened hw hh dec fuel hfuel
  obtain ⟨r', td', bs', h1', h2', -, h'⟩ := C54_written_partial hw hh dec fuel hfuel
  rw [h1] at h1'
  cases h1'
  rw [h2] at h2'
  cases h2'
  have hflat : branchesR bs = bs := branchesR_flat fun b hb => by
    obtain ⟨i, hi, rfl⟩ := List.getElem_of_mem hb
    exact (h i _ _ (List.getElem?_eq_getElem (hlen ▸ hi)) (List.getElem?_eq_getElem hi)).2.1
  refine ⟨r, td, bs, h1, h2, ?_, ?_⟩
  · unfold showTree
    rw [hflat]
    refine collect_zip hlen fun i b c hb hc => ?_
    have hcm := List.mem_of_getElem? hc
    obtain ⟨e1, -, -, -, e2, -⟩ := h i c b hc hb
    obtain ⟨n, hn, hi, hs⟩ := e2 (hbr c hcm).1 (hbr c hcm).2 (top b)
    have e3 := h' i c b hc hb (hbr c hcm).1 (hbr c hcm).2 (top b)
    unfold Branch.showLine
    rw [Res.bind_ok hi, rdClassNames_shown (hsup c hcm) hn hs, Res.bind_ok (truncate_short (shownType_length (hsup c hcm))),
      Res.bind_ok e3, e1]
    rfl
  · unfold dumpTree
    rw [hflat]
    have hcols : collect (bs.map fun b => b.dumpColumn (r.reader dec) (top b)) =
        .ok (cols.map fun c => if c.ty.isDumped then some (c.name, c.vals.map c.ty.shown) else none) := by
      refine collect_zip hlen fun i b c hb hc => ?_
      have hcm := List.mem_of_getElem? hc
      obtain ⟨e1, e4, -, e5, e2, -⟩ := h i c b hc hb
      obtain ⟨n, hn, hi, -⟩ := e2 (hbr c hcm).1 (hbr c hcm).2 (top b)
      have e3 := h' i c b hc hb (hbr c hcm).1 (hbr c hcm).2 (top b)
      unfold Branch.dumpColumn
      rw [Res.bind_ok e3, Res.bind_ok (dumpType_supported (hsup c hcm))]
      by_cases hd : c.ty.isDumped = true
      · rw [if_pos hd, if_pos hd]
        dsimp only
        rw [Res.bind_ok (cells_of e4 hn hi e5), e1]
        rfl
      · rw [if_neg hd, if_neg hd]
        rfl
    rw [Res.bind_ok hcols, hent]
    show Except.ok _ = _
    congr 1
    unfold dumpOf
    rw [Int.toNat_natCast]
    refine congrArg (fun g => List.flatMap g (List.range (longest cols))) (funext fun i => ?_)
    exact filter_columns cols i

end

/-! ### The programs -/

theorem collect_along {α β γ} {g : α → Res γ} {k : β → α} {e : β → γ} {l : List β} (h : ∀ x ∈ l, g (k x) = .ok (e x)) :
    collect ((l.map k).map g) = .ok (l.map e) := by
  refine collect_zip (by simp) fun i x y hx hy => ?_
  rw [List.getElem?_map, hy] at hx
  cases hx
  exact h y (List.mem_of_getElem? hy)

section
variable {addr : Nat → Nat} {path : Str} {ids : Nat} {ts : List TreeIn}

/-- C62: a program writes any trees to a file (as in C50) and closes it.  For that file `oxyroot-ls` prints the trees in
their order, each with its class and the names and types of its columns; `oxyroot-dump` prints the same listing and, for
every entry of every tree, the values of the columns.  Missing: columns whose names have square brackets, and the values
of columns of vectors of integers of 64 bits, see `C62_false`. -/
theorem C62_printed_partial (ha : ∀ i j, addr i = addr j → i = j) (hmem : ∀ j, ids + 20000000 ≤ addr j)
    (htext : utf8 path = true) (hpath : path.length ≤ 478) (hs : Storables ts) (hbr : ∀ t ∈ ts, t.NoBrackets)
    (dec : Decoders) (fuel : Nat) (hfuel : 3 ≤ fuel) (top : Branch → Bool) :
    ∃ f' r, writeFile (bundledEnv addr) ts (FileW.initial path ids) = (.ok (), f') ∧
      openFile dec fuel (image f'.trace) = .ok r ∧
      lsFile dec fuel top r = .ok (ts.map fun t => (b! "TTree", t.name, [], t.listing)) ∧
      dumpFile dec fuel top r = .ok (ts.map fun t => (t.name, t.listing, t.dump)) := by
  obtain ⟨f0, f, f', hw, ho, -, hts⟩ := writeFile_session ha hmem htext hpath hs
  obtain ⟨r, hr, hk⟩ := ho dec fuel hfuel
  have key : ∀ t ∈ ts, ∃ (td : TreeData) (bs : List Branch), r.getTree dec fuel t.name = .ok (td, bs, none) ∧
      showTree (r.reader dec) top bs = .ok t.listing ∧ dumpTree (r.reader dec) top td.entries bs = .ok t.dump := by
    intro t ht
    obtain ⟨before, after, f1, f2, htw, hth, -⟩ := hts t ht
    obtain ⟨r', td, bs, ho, h1, h2, h3⟩ := tree_shown htw hth (fun c hc => ((hs.each t ht).columns c hc).supported)
      (hbr t ht) dec fuel hfuel top
    rw [hr] at ho
    cases ho
    exact ⟨td, bs, h1, h2, h3⟩
  refine ⟨f', r, hw, hr, ?_, ?_⟩
  · unfold lsFile
    refine collect_zip (by simpa using congrArg List.length hk) fun i k t hki hti => ?_
    have e := congrArg (fun l => l[i]?) hk
    rw [List.getElem?_map, List.getElem?_map, hki, hti] at e
    obtain ⟨e1, e2⟩ := Prod.mk.inj (Option.some.inj e)
    obtain ⟨e2, e3⟩ := Prod.mk.inj e2
    obtain ⟨td, bs, h1, h2, -⟩ := key t (List.mem_of_getElem? hti)
    rw [e1, e2, e3, h1]
    show (showTree (r.reader dec) top bs >>= _) = _
    rw [h2]
    rfl
  · unfold dumpFile
    have hn : r.keysName = ts.map TreeIn.name := by
      have := congrArg (List.map Prod.fst) hk
      rw [List.map_map, List.map_map] at this
      exact this
    rw [hn]
    refine collect_along fun t ht => ?_
    obtain ⟨td, bs, h1, h2, h3⟩ := key t ht
    rw [h1]
    show (showTree (r.reader dec) top bs >>= _) = _
    rw [h2]
    show (dumpTree (r.reader dec) top td.entries bs >>= _) = _
    rw [h3]
    rfl

/-- C62 in full, for trees without columns of vectors of integers of 64 bits: for every entry of every tree, every
column is printed with its value, in the order of the columns. -/
theorem C62_values_partial (ha : ∀ i j, addr i = addr j → i = j) (hmem : ∀ j, ids + 20000000 ≤ addr j)
    (htext : utf8 path = true) (hpath : path.length ≤ 478) (hs : Storables ts) (hbr : ∀ t ∈ ts, t.NoBrackets)
    (h64 : ∀ t ∈ ts, ∀ c ∈ t.cols, c.ty ≠ .vec .i64 ∧ c.ty ≠ .vec .u64)
    (dec : Decoders) (fuel : Nat) (hfuel : 3 ≤ fuel) (top : Branch → Bool) :
    ∃ f' r, writeFile (bundledEnv addr) ts (FileW.initial path ids) = (.ok (), f') ∧
      openFile dec fuel (image f'.trace) = .ok r ∧
      dumpFile dec fuel top r = .ok (ts.map fun t => (t.name, t.listing, dumpOf (longest t.cols) t.cols)) := by
  obtain ⟨f', r, h1, h2, -, h3⟩ := C62_printed_partial ha hmem htext hpath hs hbr dec fuel hfuel top
  refine ⟨f', r, h1, h2, ?_⟩
  rw [h3]
  congr 1
  refine List.map_congr_left fun t ht => ?_
  unfold TreeIn.dump
  rw [List.filter_eq_self.2]
  intro c hc
  have := h64 t ht c hc
  revert this
  generalize c.ty = ty
  intro this
  unfold Ty.isDumped
  split
  · exact absurd rfl this.1
  · exact absurd rfl this.2
  · rfl

/-- A tree with a column of vectors of integers of 64 bits. -/
def longTree : TreeIn :=
  { name := b! "t", cols := [⟨.vec .i64, b! "v", [[1, 2], []]⟩, ⟨.i64, b! "x", [3]⟩], places := demoPlaces }

theorem longTree_storable : Storables [longTree] := by
  refine ⟨fun t ht => ?_, by decide, by decide⟩
  rw [List.mem_singleton.1 ht]
  refine ⟨by decide, by decide, by decide, by decide, fun c hc => ?_, fun _ => rfl, by decide⟩
  simp only [longTree, List.mem_cons, List.not_mem_nil, or_false] at hc
  rcases hc with rfl | rfl
  · exact ⟨rfl, by decide, by decide, by decide, by decide, by decide⟩
  · exact ⟨rfl, by decide, by decide, by decide, by decide, by decide⟩

theorem longTree_brackets : ∀ t ∈ [longTree], t.NoBrackets := by
  intro t ht c hc
  rw [List.mem_singleton.1 ht] at hc
  simp only [longTree, List.mem_cons, List.not_mem_nil, or_false] at hc
  rcases hc with rfl | rfl <;> decide

/-- C62 is false for vectors of integers of 64 bits: the column is in the listing but none of its values is printed. -/
theorem C62_false (ha : ∀ i j, addr i = addr j → i = j) (hmem : ∀ j, ids + 20000000 ≤ addr j)
    (htext : utf8 path = true) (hpath : path.length ≤ 478) (dec : Decoders) (fuel : Nat) (hfuel : 3 ≤ fuel)
    (top : Branch → Bool) :
    ∃ f' r out, writeFile (bundledEnv addr) [longTree] (FileW.initial path ids) = (.ok (), f') ∧
      openFile dec fuel (image f'.trace) = .ok r ∧
      dumpFile dec fuel top r = .ok [(b! "t", [⟨b! "v", b! "vector<int64_t>", b! "Vec<i64>"⟩, ⟨b! "x", b! "int64_t", b! "i64"⟩], out)] ∧
      out.map (fun l => (l.round, l.name, l.cell.isSome)) = [(0, b! "x", true), (1, b! "x", false)] := by
  obtain ⟨f', r, h1, h2, -, h3⟩ := C62_printed_partial ha hmem htext hpath longTree_storable longTree_brackets dec fuel hfuel top
  exact ⟨f', r, longTree.dump, h1, h2, h3, by decide⟩

end

/-- C62 is false for a file whose first object is not a tree (or a tree that cannot be read): both programs abort. -/
theorem C62_others_false {dec : Decoders} {fuel : Nat} {r : FileR} {n : Str} {ns : List Str} {e : Fault}
    (hk : r.keysName = n :: ns) (he : r.getTree dec fuel n = .error e) (top : Branch → Bool) :
    lsFile dec fuel top r = .error .panic ∧ dumpFile dec fuel top r = .error .panic := by
  constructor
  · unfold lsFile
    unfold FileR.keysName at hk
    cases hks : r.dir.keys with
    | nil => rw [hks] at hk; cases hk
    | cons k ks =>
      rw [hks] at hk
      have : k.name = n := (List.cons.inj hk).1
      rw [List.map_cons, this, he]
      rfl
  · unfold dumpFile
    rw [hk, List.map_cons, he]
    rfl

/-- C62 is false for a branch whose type has an array inside of it: it is printed as a column of arrays. -/
theorem C62_inside_false {r : Reader} {top : Bool} {b : Branch} (h : b.interpretation r top = .ok (b! "Vec<[i32;3]>")) :
    b.dumpColumn r top = (do
      let vs ← (b.getBasket r (Rd.sizedSlice 3 Ty.i32.unmarshal)).unwrap
      pure (some (b.name, vs.map fun v => ⟨.sized 3 .i32, v⟩))) := by
  unfold Branch.dumpColumn
  rw [Res.bind_ok h]
  have : dumpType (b! "Vec<[i32;3]>") = .ok (some (.sized 3 .i32)) := by
    unfold dumpType
    rw [show dumpTable.lookup (b! "Vec<[i32;3]>") = none by decide +kernel,
      show findArray (b! "Vec<[i32;3]>") = some (b! "i32", b! "3") by decide]
    rfl
  rw [Res.bind_ok this]
  show ((DumpTy.sized 3 .i32).cells r top b >>= _) = _
  unfold DumpTy.cells
  dsimp only
  show ((b.getBasket r (Rd.sizedSlice 3 Ty.i32.unmarshal)).unwrap >>= _) >>= _ = _
  cases (b.getBasket r (Rd.sizedSlice 3 Ty.i32.unmarshal)).unwrap <;> rfl

/-! ### The hypotheses can be met -/

theorem demoTrees_brackets : ∀ t ∈ demoTrees, t.NoBrackets := by
  intro t ht c hc
  simp only [demoTrees, List.mem_cons, List.not_mem_nil, or_false] at ht
  rcases ht with rfl | rfl | rfl
  · simp only [demoCols, List.mem_cons, List.not_mem_nil, or_false] at hc
    rcases hc with rfl | rfl | rfl <;> decide
  · simp only [List.mem_cons, List.not_mem_nil, or_false] at hc
    rcases hc with rfl | rfl <;> decide
  · cases hc

example (dec : Decoders) (top : Branch → Bool) : ∃ f' r,
    writeFile (bundledEnv (· + 20000001)) demoTrees (FileW.initial (b! "d.root") 1) = (.ok (), f') ∧
    openFile dec 3 (image f'.trace) = .ok r ∧
    lsFile dec 3 top r = .ok (demoTrees.map fun t => (b! "TTree", t.name, [], t.listing)) ∧
    dumpFile dec 3 top r = .ok (demoTrees.map fun t => (t.name, t.listing, t.dump)) :=
  C62_printed_partial (fun _ _ h => by omega) (fun _ => by omega) (by decide) (by decide) demoTrees_storable demoTrees_brackets
    dec 3 (Nat.le_refl _) top

example : demoTrees.map (fun t => t.dump.map fun l => (l.round, l.name, l.cell.isSome)) =
    [[(0, b! "x", true), (0, b! "s", true), (0, b! "v", true), (1, b! "x", true), (1, b! "s", true), (1, b! "v", false),
      (2, b! "x", true), (2, b! "s", false), (2, b! "v", false), (3, b! "x", true), (3, b! "s", false), (3, b! "v", false)],
     [(0, b! "a", true), (0, b! "b", true), (1, b! "a", true), (1, b! "b", false)], []] := by decide

example : ∀ t ∈ demoTrees, ∀ c ∈ t.cols, c.ty ≠ .vec .i64 ∧ c.ty ≠ .vec .u64 := by
  intro t ht c hc
  simp only [demoTrees, List.mem_cons, List.not_mem_nil, or_false] at ht
  rcases ht with rfl | rfl | rfl
  · simp only [demoCols, List.mem_cons, List.not_mem_nil, or_false] at hc
    rcases hc with rfl | rfl | rfl <;> decide
  · simp only [List.mem_cons, List.not_mem_nil, or_false] at hc
    rcases hc with rfl | rfl <;> decide
  · cases hc

/-- The file of `demoOps` has an object that is not a tree. -/
example (dec : Decoders) : ∃ r e ns, openFile dec 3 (image demoClosed.trace) = .ok r ∧ r.keysName = b! "o" :: ns ∧
    r.getTree dec 3 (b! "o") = .error e := by
  obtain ⟨p, hp, hpn⟩ := getElem?_of_map (f := fun p : Str × PutObj => (p.1, p.2.cls)) (g := _root_.id) (j := 1)
    (l := acceptedPuts demoEnv (createFile (FileW.initial (b! "d.root") 10)).2 demoOps)
    (m := [(b! "o", b! "A"), (b! "o", b! "A")]) (b := (b! "o", b! "A")) (by decide +kernel) rfl
  have hlen : (acceptedPuts demoEnv (createFile (FileW.initial (b! "d.root") 10)).2 demoOps).length = 2 := by
    decide +kernel
  obtain ⟨hn, hc⟩ := Prod.mk.inj hpn
  obtain ⟨r, k, n, w, h1, -, -, -, -, -, -, -, h⟩ := C16_last demo_written demo_holds demo_few dec 3
    (Nat.le_refl _) (name := p.1) (obj := p.2) hp (fun i q hi hq => by
      have := (List.getElem?_eq_some_iff.1 hq).1
      omega) (by rw [hn]; decide)
  obtain ⟨r', h1', hk, -⟩ := C15_reopen demo_written demo_holds demo_few dec 3 (Nat.le_refl _)
  rw [h1] at h1'
  cases h1'
  rw [hn, hc] at h
  refine ⟨r, .err .classNotRegistered, _, h1, hk.trans demo_accepted, ?_⟩
  unfold FileR.getTree
  rw [h]
  rfl

example : (demoNamed (b! "vector<int32_t[3]>")).interpretation emptyReader true = .ok (b! "Vec<[i32;3]>") :=
  C54_shown_partial (t := .vec (.arr 3 .i32)) ⟨rfl, by decide⟩
    ((demoNamed_named _).itemType true)
    (by rw [show cleanTypeName (b! "vector<int32_t[3]>") = b! "vector<int32_t[3]>" by decide +kernel]; decide)
    (by
      intro a c e
      have h1 : (84 : Byte) ∈ a ++ b! "TString" ++ c := by simp
      rw [← e] at h1
      exact absurd h1 (by decide +kernel))

end Verif
