import Verif.Lemmas.DeriveFeeds
import Verif.Props.TreeSession
import Verif.Props.DeriveRead
import Verif.Props.Format
/-
C72 (what is stored when iterators have nothing and go on), C47 and C56 for files that are closed and opened again.
`Props.Format` is imported so that the two are not checked at the same time, which takes much memory.
-/
namespace Verif

section
variable {env : Env} {path : Str} {ids : Nat} {before after : List Op} {tn : Str} {cb : Nat}
  {places : Places} {f0 f1 f2 f f' : FileW}

theorem TreeSession.written {cols : List Column} {made : Res WTree}
    (h : TreeSession env path ids before after made places f0 f1 f2 f f')
    (hm : ∀ t, made = .ok t → MadeOf tn cb cols t) :
    TreeWritten env path ids before after tn cb cols places f0 f1 f2 f f' := by
  obtain ⟨h1, h2, h3, ⟨t, t', h4, h5⟩, h6, h7, h8⟩ := h
  exact ⟨h1, h2, h3, ⟨t, t', hm t h4, h5⟩, h6, h7, h8⟩

/-! ### C72 -/

/-- Whatever iterators are given to `new_branch`: the tree has as many entries as the iterator that lasts
longest gives values before it has nothing, every iterator is asked once more than that, and a branch has
the values that its iterator has given, in order. -/
theorem C72_stored {feeds : List Feed}
    (hw : TreeSession env path ids before after (buildFeeds tn cb feeds) places f0 f1 f2 f f')
    (hh : TreeHolds env path before after tn (storedColumns feeds) places f0 f2 f') (dec : Decoders) (fuel : Nat)
    (hfuel : 3 ≤ fuel) :
    ∃ (r : FileR) (td : TreeData) (bs : List Branch), openFile dec fuel (image f'.trace) = .ok r ∧
      r.getTree dec fuel tn = .ok (td, bs, none) ∧ td.entries = steadiest feeds ∧ bs.length = feeds.length ∧
      ∀ (i : Nat) (a : Feed) (b : Branch), feeds[i]? = some a → bs[i]? = some b →
        b.name = a.name ∧
        b.getBasket (r.reader dec) a.ty.unmarshal = .ok ((a.answers.take (steadiest feeds + 1)).filterMap id) ∧
        ((91 : Byte) ∉ a.name → (93 : Byte) ∉ a.name → ∀ top,
          b.asIter (r.reader dec) top (some a.ty.rdClassNames) a.ty.unmarshal =
            .ok ((a.answers.take (steadiest feeds + 1)).filterMap id)) := by
  have hw' := hw.written (tn := tn) (cb := cb) (cols := storedColumns feeds) fun t ht => ⟨feeds, rfl, ht⟩
  obtain ⟨r, td, bs, h1, h2, -, h4, h5, h⟩ := tree_reopened hw' hh dec fuel hfuel
  refine ⟨r, td, bs, h1, h2, ?_, ?_, fun i a b ha hb => ?_⟩
  · rw [h4, longest_stored]
  · rw [h5]; exact List.length_map _
  · obtain ⟨e1, -, -, e4, e5, -⟩ := h i (a.given (steadiest feeds + 1)) b
      (by unfold storedColumns; rw [List.getElem?_map, ha]; rfl) hb
    refine ⟨e1, e4, fun hl hr top => ?_⟩
    obtain ⟨n, hn, hi, -⟩ := e5 hl hr top
    rw [asIter_of hi, if_pos (show n ∈ a.ty.rdClassNames from hn)]
    exact e4

theorem takeWhile_fused {α : Type} (l : List (Option α)) (h : ∀ i j : Nat, i ≤ j → l[i]?.join = none → l[j]?.join = none)
    {n : Nat} (hn : (l.takeWhile Option.isSome).length ≤ n) :
    (l.take n).filterMap id = (l.takeWhile Option.isSome).filterMap id := by
  induction l generalizing n with
  | nil => simp
  | cons x l ih =>
    cases x with
    | none =>
      have hz : ∀ y ∈ none :: l, y = none := by
        intro y hy
        obtain ⟨j, hj, rfl⟩ := List.getElem_of_mem hy
        have := h 0 j (Nat.zero_le _) rfl
        rw [List.getElem?_eq_getElem hj] at this
        exact this
      show _ = []
      rw [List.filterMap_eq_nil_iff]
      intro y hy
      rw [hz y (List.mem_of_mem_take hy)]
      rfl
    | some v =>
      rw [List.takeWhile_cons_of_pos rfl] at hn ⊢
      obtain ⟨m, rfl⟩ : ∃ m, n = m + 1 := ⟨n - 1, by rw [List.length_cons] at hn; omega⟩
      rw [List.take_succ_cons]
      show v :: _ = v :: _
      rw [ih (fun i j hij hi => h (i + 1) (j + 1) (by omega) hi) (by rw [List.length_cons] at hn; omega)]

/-- C72 for iterators that have nothing for ever when they have nothing once: a branch has the values its iterator
gives before it has nothing, and no others.  Missing: other iterators, for which it is false
(`C72_false`); what is stored of them is said by `C72_stored`. -/
theorem C72_ended_partial {feeds : List Feed} (hfused : ∀ a ∈ feeds, a.Fused)
    (hw : TreeSession env path ids before after (buildFeeds tn cb feeds) places f0 f1 f2 f f')
    (hh : TreeHolds env path before after tn (storedColumns feeds) places f0 f2 f') (dec : Decoders) (fuel : Nat)
    (hfuel : 3 ≤ fuel) :
    ∃ (r : FileR) (td : TreeData) (bs : List Branch), openFile dec fuel (image f'.trace) = .ok r ∧
      r.getTree dec fuel tn = .ok (td, bs, none) ∧ bs.length = feeds.length ∧
      ∀ (i : Nat) (a : Feed) (b : Branch), feeds[i]? = some a → bs[i]? = some b →
        b.name = a.name ∧ b.getBasket (r.reader dec) a.ty.unmarshal = .ok a.first := by
  obtain ⟨r, td, bs, h1, h2, -, h4, h⟩ := C72_stored hw hh dec fuel hfuel
  refine ⟨r, td, bs, h1, h2, h4, fun i a b ha hb => ?_⟩
  obtain ⟨e1, e2, -⟩ := h i a b ha hb
  have hm := List.mem_of_getElem? ha
  refine ⟨e1, e2.trans (congrArg Except.ok ?_)⟩
  have := steadiest_le.1 (Nat.le_refl (steadiest feeds)) a hm
  exact takeWhile_fused a.answers (hfused a hm) (Nat.le_succ_of_le this)

/-! ### C47 and C56 -/

/-- C47 for files that are closed and opened again: of structures that are nested in any way, the branch of a
field has the values of the field, in the order of the structures; all of them when the field is at most
one structure deep, without the last `d - 1` when it is `d` deep; and nothing at all when no field of the
outermost structure is stored in a branch.  Missing: what is lost. -/
theorem C47_reopened_partial {g : Option Str} {fs : Fields} {rows : List fs.Val}
    (hw : TreeSession env path ids before after ((Shape.struct g fs).toTree rows (WTree.new tn)) places f0 f1 f2 f f')
    (hh : TreeHolds env path before after tn (fs.kept rows) places f0 f2 f') (dec : Decoders) (fuel : Nat)
    (hfuel : 3 ≤ fuel) :
    ∃ (r : FileR) (td : TreeData) (bs : List Branch), openFile dec fuel (image f'.trace) = .ok r ∧
      r.getTree dec fuel tn = .ok (td, bs, none) ∧ bs.length = fs.slots.length ∧
      td.entries = ((if fs.slots.any (fun x => x.depth == 0) then rows.length else 0 : Nat) : Int) ∧
      ∀ (i : Nat) (x : FieldSlot fs.Val) (b : Branch), fs.slots[i]? = some x → bs[i]? = some b →
        b.name = x.name ∧
        b.getBasket (r.reader dec) x.ty.unmarshal =
          .ok ((rows.map x.get).take (fs.storedCount rows.length x.depth)) := by
  have hw' := hw.written (tn := tn) (cb := fs.callbacks + 1) (cols := fs.kept rows) fun t ht => toTree_madeOf ht
  obtain ⟨r, td, bs, h1, h2, -, h4, h5, h⟩ := tree_reopened hw' hh dec fuel hfuel
  refine ⟨r, td, bs, h1, h2, ?_, ?_, fun i x b hx hb => ?_⟩
  · rw [h5]; exact List.length_map _
  · rw [h4, ← stored_slots, longest_stored, steadiest_slots]
  · obtain ⟨e1, -, -, e4, -⟩ := h i ⟨x.ty, x.name, (rows.map x.get).take (fs.storedCount rows.length x.depth)⟩ b
      (by unfold Fields.kept; rw [List.getElem?_map, hx]; rfl) hb
    exact ⟨e1, e4⟩

/-- C56 for structures in structures: written with the derived writer and read with the derived reader they are the
same, when no field is in a structure in a structure in the outermost one, one field is directly in the
outermost structure, and the names under which the fields are read (with prefixes, other names and
absolute names) are the names of the fields.  Missing: other names (`C56_nested_false`,
`C27_rename_false`) and deeper fields (`C47_false`). -/
theorem C56_session_partial {g : Option Str} {fs : Fields} {rows : List fs.Val}
    (hw : TreeSession env path ids before after ((Shape.struct g fs).toTree rows (WTree.new tn)) places f0 f1 f2 f f')
    (hh : TreeHolds env path before after tn (fs.stored g none rows) places f0 f2 f')
    (hn : fs.documentedNames g none = fs.slots.map FieldSlot.name) (h0 : ∃ x ∈ fs.slots, x.depth = 0)
    (h1 : ∀ x ∈ fs.slots, x.depth ≤ 1) (hnd : (fs.documentedNames g none).Nodup)
    (hp : ∀ n ∈ fs.documentedNames g none, PlainName n) (dec : Decoders) (fuel : Nat) (hfuel : 3 ≤ fuel) :
    ∃ (r : FileR) (td : TreeData) (bs : List Branch) (it : Nat → Option fs.Val),
      openFile dec fuel (image f'.trace) = .ok r ∧ r.getTree dec fuel tn = .ok (td, bs, none) ∧
      (Shape.struct g fs).fromTree (r.reader dec) bs = .ok it ∧ Gives it rows := by
  have hk := kept_stored rows hn h0 h1
  have hw' := hw.written (tn := tn) (cb := fs.callbacks + 1) (cols := fs.stored g none rows)
    fun t ht => hk ▸ toTree_madeOf ht
  have hnames := Fields.stored_names fs g none rows
  obtain ⟨r, td, bs, e1, e2, h⟩ := column_reopened hw' hh (by rw [hnames]; exact hnd) dec fuel hfuel
  obtain ⟨it, h7, h8⟩ := C56_reads (r := r.reader dec) (bs := bs) (g := g) rows (by
    intro e
    rw [e, hn] at hnames
    obtain ⟨x, hx, -⟩ := h0
    have := congrArg List.length hnames
    rw [List.length_map, List.length_map] at this
    have := List.length_pos_of_mem hx
    simp at *
    omega) fun c hc => by
      have hc' : c.name ∈ fs.documentedNames g none := hnames ▸ List.mem_map_of_mem hc
      obtain ⟨b, hb, hv⟩ := h c hc (hp _ hc').1 (hp _ hc').2
      obtain ⟨top, htop⟩ := lookupTop_of hb
      exact ⟨b, top, htop, (hv top).1⟩
  exact ⟨r, td, bs, it, e1, e2, h7, h8⟩

end

/-! ### The hypotheses can be met -/

/-- A tree is written to the new file. -/
def madeWritten (made : Res WTree) : Res WTree × FileW :=
  match made with
  | .ok t => t.write demoTreeEnv demoPlaces demoFile
  | .error e => (.error e, demoFile)

/-- The closed file. -/
def madeClosed (made : Res WTree) : FileW := (closeFile demoTreeEnv (madeWritten made).2).2

/-- What is computed of it. -/
def madeChecks (made : Res WTree) : Bool :=
  isOk (madeWritten made).1 && (below2GB (madeWritten made).2 && (isOk (closeFile demoTreeEnv (madeWritten made).2).1 &&
    (below2GB (madeClosed made) && (decide ((madeClosed made).header.nBytesInfo < 2 ^ 30) &&
      (decide ((madeClosed made).sinfos.length < 2 ^ 31) && (decide ((madeClosed made).ids ≤ 1000) &&
        (madeClosed made).dir.keys.all fun k => decide (k.nBytes < 2 ^ 30)))))))

theorem made_session {made : Res WTree} (h : madeChecks made = true) :
    TreeSession demoTreeEnv (b! "d.root") 10 [] [] made demoPlaces demoFile demoFile (madeWritten made).2
      (madeWritten made).2 (madeClosed made) := by
  obtain ⟨h1, h2, h3, h4, -⟩ := by
    simpa only [madeChecks, Bool.and_eq_true] using h
  refine ⟨demo_create, demo_small, .nil, ?_, below2GB_iff.1 h2, .nil, ⟨ok_pair h3, below2GB_iff.1 h4⟩⟩
  cases made with
  | error e => cases h1
  | ok t =>
    obtain ⟨t', ht⟩ := ok_result h1
    exact ⟨t, t', rfl, ht⟩

theorem made_holds {made : Res WTree} (h : madeChecks made = true) {cols : List Column}
    (hc : ∀ c ∈ cols, c.Holds (b! "t")) (hlong : longest cols < 2 ^ 31) (hlen : cols.length = 3)
    (hvec : ∀ c ∈ cols, ∀ e, c.ty ≠ .vec e) :
    TreeHolds demoTreeEnv (b! "d.root") [] [] (b! "t") cols demoPlaces demoFile (madeWritten made).2
      (madeClosed made) := by
  obtain ⟨-, -, -, -, h5, h6, h7, h8⟩ := by
    simpa only [madeChecks, Bool.and_eq_true, decide_eq_true_eq, List.all_eq_true] using h
  refine ⟨demo_session_holds.process, by decide, by decide, (fun p hp => by cases hp), (fun p hp => by cases hp), h5, h6,
    fun j => ?_, fun n => ?_, by decide, by decide, by decide, (fun p hp => by cases hp), hc, by omega, hlong,
    fun i => rfl, ?_, fun k hk _ => h8 k hk, fun c hc e he => absurd he (hvec c hc e),
    fun c hc e he => absurd he (hvec c hc e)⟩
  · show _ ≤ 2 * j + 1000
    omega
  · exact Nat.le_trans List.count_le_length (show 1 ≤ 32767 by decide)
  · rw [hlen]
    decide +kernel

/-- Three iterators: one that gives three values, one that pauses first, and one that pauses in between. -/
def pausing : List Feed :=
  [⟨.i32, b! "x", [some (1 : Int), some (2 : Int), some (3 : Int)]⟩,
   ⟨.u8, b! "y", [none, some (7 : Nat), none, none, some (8 : Nat)]⟩,
   ⟨.string, b! "z", [some (b! "a"), none, some (b! "b"), some (b! "c")]⟩]

theorem pausing_checks : madeChecks (buildFeeds (b! "t") 0 pausing) = true := by decide +kernel

theorem pausing_holds : TreeHolds demoTreeEnv (b! "d.root") [] [] (b! "t") (storedColumns pausing) demoPlaces demoFile
    (madeWritten (buildFeeds (b! "t") 0 pausing)).2 (madeClosed (buildFeeds (b! "t") 0 pausing)) := by
  have hcols : storedColumns pausing = [⟨.i32, b! "x", [(1 : Int), (2 : Int), (3 : Int)]⟩, ⟨.u8, b! "y", [(7 : Nat)]⟩,
    ⟨.string, b! "z", [b! "a", b! "b", b! "c"]⟩] := rfl
  rw [hcols]
  refine made_holds pausing_checks (fun c hc => ?_) (by decide) rfl fun c hc e he => ?_
  · simp only [List.mem_cons, List.not_mem_nil, or_false] at hc
    rcases hc with rfl | rfl | rfl <;>
      exact ⟨by decide, by decide, by decide +kernel, fun e he => (by cases he), fun n e he => (by cases he)⟩
  · simp only [List.mem_cons, List.not_mem_nil, or_false] at hc
    rcases hc with rfl | rfl | rfl <;> cases he

/-- C72 is false for iterators that go on after they had nothing: `y` has nothing at first, so nothing of it should
be stored, but the 7 that it gives next is, as the first entry of the column, and the 8 is not; of `z`,
all of `a`, `b` and `c` are stored. -/
theorem C72_false (dec : Decoders) : ∃ (f1 f2 f f' : FileW) (r : FileR) (td : TreeData) (bs : List Branch) (y z : Branch),
    TreeSession demoTreeEnv (b! "d.root") 10 [] [] (buildFeeds (b! "t") 0 pausing) demoPlaces demoFile f1 f2 f f' ∧
    openFile dec 3 (image f'.trace) = .ok r ∧ r.getTree dec 3 (b! "t") = .ok (td, bs, none) ∧ td.entries = 3 ∧
    bs[1]? = some y ∧ y.name = b! "y" ∧ y.getBasket (r.reader dec) Ty.u8.unmarshal = .ok [7] ∧
    bs[2]? = some z ∧ z.name = b! "z" ∧ z.getBasket (r.reader dec) Ty.string.unmarshal = .ok [b! "a", b! "b", b! "c"] ∧
    pausing.map (fun a => a.first.length) = [3, 0, 1] := by
  obtain ⟨r, td, bs, h1, h2, h3, h4, h⟩ := C72_stored (made_session pausing_checks) pausing_holds dec 3 (Nat.le_refl _)
  match bs, h4, h2, h with
  | [x, y, z], _, h2, h =>
    obtain ⟨a1, a2, -⟩ := h 1 ⟨.u8, b! "y", [none, some (7 : Nat), none, none, some (8 : Nat)]⟩ _ rfl rfl
    obtain ⟨b1, b2, -⟩ := h 2 ⟨.string, b! "z", [some (b! "a"), none, some (b! "b"), some (b! "c")]⟩ _ rfl rfl
    exact ⟨_, _, _, _, r, td, _, y, z, made_session pausing_checks, h1, h2, h3, rfl, a1, a2, rfl, b1, b2, rfl⟩

/-- The hypothesis of `C72_ended_partial` can be met: the iterators of the small tree. -/
example : ∀ a ∈ demoCols.map Column.feed, a.Fused := by
  intro a ha
  obtain ⟨c, -, rfl⟩ := List.mem_map.1 ha
  intro i j hij hi
  unfold Column.feed at hi ⊢
  dsimp only at hi ⊢
  rw [List.getElem?_map] at hi ⊢
  cases hx : c.vals[i]? with
  | some v => rw [hx] at hi; cases hi
  | none =>
    have := List.getElem?_eq_none_iff.1 hx
    rw [List.getElem?_eq_none (by omega)]
    rfl

theorem deep_checks : madeChecks (demoShape.toTree demoRows (WTree.new (b! "t"))) = true := by decide +kernel

/-- The fields of the structure with a field of each depth. -/
def demoDeep : Fields :=
  .cons { name := b! "a" } (.leaf .u8)
  (.cons { name := b! "s" } (.struct none
    (.cons { name := b! "x" } (.leaf .u8)
    (.cons { name := b! "u" } (.struct none (.cons { name := b! "y" } (.leaf .u8) .nil)) .nil))) .nil)

/-- Three structures with a field of each depth, written and read: the last `y` is lost. -/
example (dec : Decoders) : ∃ (f1 f2 f f' : FileW) (r : FileR) (td : TreeData) (bs : List Branch) (a x y : Branch),
    TreeSession demoTreeEnv (b! "d.root") 10 [] [] (demoShape.toTree demoRows (WTree.new (b! "t"))) demoPlaces demoFile
      f1 f2 f f' ∧
    openFile dec 3 (image f'.trace) = .ok r ∧ r.getTree dec 3 (b! "t") = .ok (td, bs, none) ∧ td.entries = 3 ∧
    bs = [a, x, y] ∧ [a, x, y].map Branch.name = [b! "a", b! "x", b! "y"] ∧
    a.getBasket (r.reader dec) Ty.u8.unmarshal = .ok [1, 4, 7] ∧
    x.getBasket (r.reader dec) Ty.u8.unmarshal = .ok [2, 5, 8] ∧
    y.getBasket (r.reader dec) Ty.u8.unmarshal = .ok [3, 6] := by
  have hh : TreeHolds demoTreeEnv (b! "d.root") [] [] (b! "t") (demoDeep.kept demoRows) demoPlaces demoFile
      (madeWritten (demoShape.toTree demoRows (WTree.new (b! "t")))).2
      (madeClosed (demoShape.toTree demoRows (WTree.new (b! "t")))) := by
    have hcols : demoDeep.kept demoRows = [⟨.u8, b! "a", [(1 : Nat), (4 : Nat), (7 : Nat)]⟩,
      ⟨.u8, b! "x", [(2 : Nat), (5 : Nat), (8 : Nat)]⟩, ⟨.u8, b! "y", [(3 : Nat), (6 : Nat)]⟩] := rfl
    rw [hcols]
    refine made_holds deep_checks (fun c hc => ?_) (by decide) rfl fun c hc e he => ?_
    · simp only [List.mem_cons, List.not_mem_nil, or_false] at hc
      rcases hc with rfl | rfl | rfl <;>
        exact ⟨by decide, by decide, by decide +kernel, fun e he => (by cases he), fun n e he => (by cases he)⟩
    · simp only [List.mem_cons, List.not_mem_nil, or_false] at hc
      rcases hc with rfl | rfl | rfl <;> cases he
  obtain ⟨r, td, bs, h1, h2, h3, h4, h⟩ := C47_reopened_partial (g := none) (fs := demoDeep) (rows := demoRows)
    (made_session deep_checks) hh dec 3 (Nat.le_refl _)
  match bs, h3, h2, h with
  | [a, x, y], _, h2, h =>
    obtain ⟨a1, a2⟩ := h 0 _ _ rfl rfl
    obtain ⟨x1, x2⟩ := h 1 _ _ rfl rfl
    obtain ⟨y1, y2⟩ := h 2 _ _ rfl rfl
    refine ⟨_, _, _, _, r, td, _, a, x, y, made_session deep_checks, h1, h2, h4, rfl, ?_, a2, x2, y2⟩
    show [a.name, x.name, y.name] = _
    rw [a1, x1, y1]
    rfl

/-- A structure in a structure that can be read back: a field of the inner one has an absolute name. -/
def demoInner : Fields :=
  .cons { name := b! "a" } (.leaf .u8)
  (.cons { name := b! "s" } (.struct none
    (.cons { name := b! "x", absolute := some (b! "x") } (.leaf .u8)
    (.cons { name := b! "y", absolute := some (b! "y") } (.leaf .string) .nil))) .nil)

/-- Two of them. -/
def demoInnerRows : List demoInner.Val :=
  [((1 : Nat), ((2 : Nat), (b! "p" : Str), ()), ()), ((4 : Nat), ((5 : Nat), (b! "q" : Str), ()), ())]

theorem inner_checks :
    madeChecks ((Shape.struct none demoInner).toTree demoInnerRows (WTree.new (b! "t"))) = true := by decide +kernel

/-- The hypotheses of `C56_session_partial` can be met. -/
example (dec : Decoders) : ∃ (f1 f2 f f' : FileW) (r : FileR) (td : TreeData) (bs : List Branch)
    (it : Nat → Option demoInner.Val),
    TreeSession demoTreeEnv (b! "d.root") 10 [] [] ((Shape.struct none demoInner).toTree demoInnerRows (WTree.new (b! "t")))
      demoPlaces demoFile f1 f2 f f' ∧
    openFile dec 3 (image f'.trace) = .ok r ∧ r.getTree dec 3 (b! "t") = .ok (td, bs, none) ∧
    (Shape.struct none demoInner).fromTree (r.reader dec) bs = .ok it ∧ Gives it demoInnerRows := by
  have hh : TreeHolds demoTreeEnv (b! "d.root") [] [] (b! "t") (demoInner.stored none none demoInnerRows) demoPlaces
      demoFile (madeWritten ((Shape.struct none demoInner).toTree demoInnerRows (WTree.new (b! "t")))).2
      (madeClosed ((Shape.struct none demoInner).toTree demoInnerRows (WTree.new (b! "t")))) := by
    have hcols : demoInner.stored none none demoInnerRows = [⟨.u8, b! "a", [(1 : Nat), (4 : Nat)]⟩,
      ⟨.u8, b! "x", [(2 : Nat), (5 : Nat)]⟩, ⟨.string, b! "y", [b! "p", b! "q"]⟩] := rfl
    rw [hcols]
    refine made_holds inner_checks (fun c hc => ?_) (by decide) rfl fun c hc e he => ?_
    · simp only [List.mem_cons, List.not_mem_nil, or_false] at hc
      rcases hc with rfl | rfl | rfl <;>
        exact ⟨by decide, by decide, by decide +kernel, fun e he => (by cases he), fun n e he => (by cases he)⟩
    · simp only [List.mem_cons, List.not_mem_nil, or_false] at hc
      rcases hc with rfl | rfl | rfl <;> cases he
  obtain ⟨r, td, bs, it, h1, h2, h3, h4⟩ := C56_session_partial (g := none) (fs := demoInner) (rows := demoInnerRows)
    (made_session inner_checks) hh rfl ⟨_, List.mem_cons_self, rfl⟩
    (by
      intro x hx
      have : ∀ y ∈ demoInner.slots.map FieldSlot.depth, y ≤ 1 := by decide
      exact this _ (List.mem_map_of_mem hx))
    (by decide) (fun n hn => by unfold PlainName; revert n; decide) dec 3 (Nat.le_refl _)
  exact ⟨_, _, _, _, r, td, bs, it, made_session inner_checks, h1, h2, h3, h4⟩

end Verif
