import Verif.Lemmas.Derive
import Verif.Spec.DemoTree
import Verif.Props.Dictionary
/-
C27 (names of the branches of derived structures), C47 (derived structures are stored completely).  `Props.Dictionary` is
imported only so that the two modules, which need much memory, are not checked at the same time.
-/
namespace Verif

/-! ### C27 -/

/-- C27: the name of a child is the name of its parent, a dot, and its own, when the parent has a name,
and its own otherwise. -/
theorem C27_child (b : BranchName) (n : Str) :
    (b.makeChild n).finalName = (if b.name.isSome then b.finalName ++ b! "." else []) ++ n := by
  unfold BranchName.makeChild
  rcases b.name with _ | m <;> simp [BranchName.finalName]

/-- C27: a prefix comes between the parent and the name. -/
theorem C27_prefix (b : BranchName) (n p : Str) :
    ((b.makeChild n).withPrefix p).finalName =
      (if b.name.isSome then b.finalName ++ b! "." else []) ++ p ++ n := by
  unfold BranchName.makeChild
  rcases b.name with _ | m <;> simp [BranchName.finalName, BranchName.withPrefix]

/-- C27: absolute names ignore the parent and the prefix set before, not the prefix set afterwards. -/
theorem C27_absolute (b : BranchName) (n p : Str) :
    (b.makeAbsolute n).finalName = n ∧ ((b.makeAbsolute n).withPrefix p).finalName = p ++ n :=
  ⟨rfl, rfl⟩

theorem FieldOpts.branchName_final (o : FieldOpts) (g : Option Str) (b : BranchName) :
    (o.branchName g b).finalName = documentedName o g (b.name.map fun _ => b.finalName) := by
  obtain ⟨name, rename, l, a⟩ := o
  rcases b with ⟨q, n, p⟩
  unfold FieldOpts.branchName documentedName BranchName.makeChild
  rcases a with _ | a <;> rcases l with _ | l <;> rcases g with _ | g <;> rcases n with _ | n <;>
    simp [BranchName.name, BranchName.withPrefix, BranchName.makeAbsolute, BranchName.finalName]

theorem FieldOpts.branchName_named (o : FieldOpts) (g : Option Str) (b : BranchName) :
    (o.branchName g b).name.isSome := by
  obtain ⟨name, rename, l, a⟩ := o
  rcases b with ⟨q, n, p⟩
  unfold FieldOpts.branchName BranchName.makeChild
  rcases a with _ | a <;> rcases l with _ | l <;> rcases g with _ | g <;> rcases n with _ | n <;>
    simp [BranchName.name, BranchName.withPrefix, BranchName.makeAbsolute]

mutual
theorem Shape.readNames_eq : (s : Shape) → (b : BranchName) → b.name.isSome →
    s.readNames b = s.documentedNames b.finalName
  | .leaf _, b, _ => rfl
  | .struct g fs, b, h => by
    have := Fields.readNames_eq fs g b
    obtain ⟨n, hn⟩ := Option.isSome_iff_exists.1 h
    rw [hn] at this
    exact this
theorem Fields.readNames_eq : (fs : Fields) → (g : Option Str) → (b : BranchName) →
    fs.readNames g b = fs.documentedNames g (b.name.map fun _ => b.finalName)
  | .nil, _, _ => rfl
  | .cons o s fs, g, b => by
    unfold Fields.readNames Fields.documentedNames
    rw [Shape.readNames_eq s _ (o.branchName_named g b), o.branchName_final, Fields.readNames_eq fs]
end

/-- C27: the names that a derived `ReadFromTree` looks up are the documented ones, however deep
structures are nested and whatever attributes are used. -/
theorem C27_documented (g : Option Str) (fs : Fields) :
    (Shape.struct g fs).treeReadNames = fs.documentedNames g none :=
  Fields.readNames_eq fs g .new

/-- A structure with a prefix, a renamed field, a field with its own prefix, and a structure that has a
field with an absolute name. -/
example : (Shape.struct (some (b! "p_"))
    (.cons { name := b! "a" } (.leaf .i32)
    (.cons { name := b! "b", rename := some (b! "c"), branchPrefix := some (b! "q_") } (.leaf .i32)
    (.cons { name := b! "s" } (.struct none
      (.cons { name := b! "x" } (.leaf .f64)
      (.cons { name := b! "y", absolute := some (b! "z") } (.leaf .f64) .nil))) .nil)))).treeReadNames =
    [b! "p_a", b! "q_c", b! "p_s.x", b! "z"] := by decide

/-- C27, between writer and reader: the names are the same for structures whose fields are all stored in
branches, without attributes.  Missing: nested structures and attributes, for which it is false
(`C27_nested_false`, `C27_rename_false`). -/
theorem C27_writer_partial : (fs : Fields) → fs.Flat → fs.Plain →
    ∃ bs, (Shape.struct none fs).writeBranches none = .ok bs ∧
      bs.map Prod.fst = (Shape.struct none fs).treeReadNames
  | .nil, _, _ => ⟨[], rfl, rfl⟩
  | .cons o (.leaf t) fs, hf, hp => by
    obtain ⟨bs, h1, h2⟩ := C27_writer_partial fs hf hp.2
    have h1 : fs.writeBranches = .ok bs := h1
    refine ⟨(o.name, t) :: bs, ?_, ?_⟩
    · show (Fields.cons o (.leaf t) fs).writeBranches = _
      unfold Fields.writeBranches
      rw [h1]; rfl
    · rw [C27_documented] at h2 ⊢
      unfold Fields.documentedNames
      rw [List.map_cons, h2, documentedName]
      obtain ⟨e1, e2, e3⟩ := hp.1
      rw [e1, e2, e3]
      rfl
  | .cons _ (.struct ..) _, hf, _ => hf.elim

/-- The hypotheses can be met. -/
example : (Fields.cons { name := b! "a" } (.leaf .i32) (.cons { name := b! "b" } (.leaf .string) .nil)).Flat ∧
    (Fields.cons { name := b! "a" } (.leaf .i32) (.cons { name := b! "b" } (.leaf .string) .nil)).Plain :=
  ⟨trivial, ⟨rfl, rfl, rfl⟩, ⟨rfl, rfl, rfl⟩, trivial⟩

/-- C27, between writer and reader, is false for nested structures: whatever the names, the field of an
inner structure is written without the name of the field it is in, and looked up with it. -/
theorem C27_nested_false (outer inner : Str) (t : Ty) :
    ∃ bs, (Shape.struct none (.cons { name := outer }
        (.struct none (.cons { name := inner } (.leaf t) .nil)) .nil)).writeBranches none = .ok bs ∧
      bs.map Prod.fst = [inner] ∧
      (Shape.struct none (.cons { name := outer }
        (.struct none (.cons { name := inner } (.leaf t) .nil)) .nil)).treeReadNames =
          [outer ++ b! "." ++ inner] ∧
      [inner] ≠ [outer ++ b! "." ++ inner] := by
  refine ⟨[(inner, t)], rfl, rfl, ?_, ?_⟩
  · rw [C27_documented]
    simp [Fields.documentedNames, Shape.documentedNames, documentedName]
  · intro h
    injection h with h _
    have := congrArg List.length h
    simp at this
    omega

/-- C27, between writer and reader, is false for renamed fields. -/
theorem C27_rename_false (field name : Str) (t : Ty) (h : name ≠ field) :
    ∃ bs, (Shape.struct none (.cons { name := field, rename := some name } (.leaf t) .nil)).writeBranches none =
        .ok bs ∧
      bs.map Prod.fst = [field] ∧
      (Shape.struct none (.cons { name := field, rename := some name } (.leaf t) .nil)).treeReadNames = [name] ∧
      [field] ≠ [name] := by
  refine ⟨[(field, t)], rfl, rfl, ?_, fun e => h (List.cons.inj e).1.symm⟩
  rw [C27_documented]
  simp [Fields.documentedNames, Shape.documentedNames, documentedName]

/-! ### C47 -/

/-- C47: what the branch of a field answers: nothing for as many rounds as there are structures between
it and the outermost one, then the values of the field, in order. -/
theorem C47_answers {g : Option Str} {fs : Fields} (rows : List fs.Val) {name : Str} {t : WTree}
    (h : (Shape.struct g fs).toTree rows (WTree.new name) = .ok t) :
    t.branches.map WBranch.items = fs.leaves.map fun x =>
      List.replicate x.1 none ++ rows.map (fun v => some (x.2 v)) ++ List.replicate (fs.depth - x.1) none := by
  unfold Shape.toTree at h
  obtain ⟨bs, h0, h⟩ := Res.ok_bind.1 h
  obtain ⟨t1, h1, h⟩ := Res.ok_bind.1 h
  cases h
  have hl : bs.length = fs.leaves.length := Fields.writeBranches_length fs bs h0
  obtain ⟨h2, -⟩ := Shape.pushBranches_fedA (done := []) (by trivial) h1
  rw [List.nil_append, Shape.pushed_eq rows bs (by simpa using hl), List.drop_zero] at h2
  refine (h2.map_eq (p := Prod.snd) fun c b hb => by rw [hb.items]; rfl).symm.trans ?_
  rw [List.map_zipWith]
  apply List.ext_getElem
  · simp [hl]
  · intro i _ _; simp

/-- The tree of a structure before it is written. -/
theorem toTree_fedA {g : Option Str} {fs : Fields} {rows : List fs.Val} {name : Str} {t : WTree}
    (h : (Shape.struct g fs).toTree rows (WTree.new name) = .ok t) :
    ∃ bs : List (Str × Ty), bs.length = fs.leaves.length ∧ t.data.entries = 0 ∧
      All2 (FedA 0) (List.zipWith (fun x y => (x.1, List.replicate y.1 none ++
        rows.map (fun v => some (y.2 v)) ++ List.replicate (fs.depth - y.1) none)) bs fs.leaves) t.branches := by
  unfold Shape.toTree at h
  obtain ⟨bs, h0, h⟩ := Res.ok_bind.1 h
  obtain ⟨t1, h1, h⟩ := Res.ok_bind.1 h
  cases h
  have hl : bs.length = fs.leaves.length := Fields.writeBranches_length fs bs h0
  obtain ⟨h2, h3⟩ := Shape.pushBranches_fedA (done := []) (by trivial) h1
  rw [List.nil_append, Shape.pushed_eq rows bs (by simpa using hl), List.drop_zero] at h2
  refine ⟨bs, hl, ?_, h2⟩
  rw [h3]; rfl

theorem toTree_written {env : Env} {places : Places} {g : Option Str} {fs : Fields} {rows : List fs.Val}
    {name : Str} {t t' : WTree} {f f' : FileW}
    (hb : (Shape.struct g fs).toTree rows (WTree.new name) = .ok t)
    (h : t.write env places f = (.ok t', f')) :
    ∃ n : Nat, t'.data.entries = n ∧
      (∀ x ∈ fs.leaves, 0 < x.1 ∨ rows.length ≤ n) ∧
      (∀ m, m < n → ∃ x ∈ fs.leaves, x.1 = 0 ∧ m < rows.length) ∧
      t'.branches.map (fun b => b.branch.data.entries) =
        fs.leaves.map fun x => ((min rows.length (n + 1 - x.1) : Nat) : Int) := by
  obtain ⟨bs, hl, he, ha⟩ := toTree_fedA hb
  obtain ⟨n, e1, e2, e3, e4⟩ := WTree.write_fedA ha he h
  refine ⟨n, e1, fun x hx => ?_, fun m hm => ?_, ?_⟩
  · obtain ⟨i, hi, rfl⟩ := List.getElem_of_mem hx
    have := e3 _ (List.getElem_mem (l := List.zipWith _ bs fs.leaves) (n := i) (by simp [hl]; exact hi))
    rw [List.getElem_zipWith, doneBy_stream, decide_eq_true_iff] at this
    exact this
  · obtain ⟨c, hc, hd⟩ := e4 m hm
    obtain ⟨i, hi, rfl⟩ := List.getElem_of_mem hc
    rw [List.getElem_zipWith, doneBy_stream, decide_eq_false_iff_not] at hd
    have hi' : i < fs.leaves.length := by rw [List.length_zipWith] at hi; omega
    exact ⟨_, List.getElem_mem hi', by omega, by omega⟩
  · refine (e2.map_eq (p := fun c => (((c.2.take (n + 1)).filterMap id).length : Int))
      fun c b hb => hb.entries.symm).symm.trans ?_
    rw [List.map_zipWith]
    apply List.ext_getElem
    · simp [hl]
    · intro i h1 h2
      rw [List.getElem_zipWith, List.getElem_map, taken_stream, List.length_map, List.length_take]
      congr 1
      omega

/-- C47: when a field of the outermost structure is stored in a branch, the tree has one entry per
structure, and a branch one per structure too when its field is in the outermost structure or in a
structure directly in it.  Missing: deeper fields, which lose their last values
(`C47_deep`, `C47_false`), and structures without such a field, of which nothing is stored
(`C47_nothing`). -/
theorem C47_stored_partial {env : Env} {places : Places} {g : Option Str} {fs : Fields} {rows : List fs.Val}
    {name : Str} {t t' : WTree} {f f' : FileW}
    (hb : (Shape.struct g fs).toTree rows (WTree.new name) = .ok t)
    (h : t.write env places f = (.ok t', f')) (h0 : ∃ x ∈ fs.leaves, x.1 = 0) (h1 : ∀ x ∈ fs.leaves, x.1 ≤ 1) :
    t'.data.entries = rows.length ∧ ∀ b ∈ t'.branches, b.branch.data.entries = rows.length := by
  obtain ⟨n, e1, e2, e3, e4⟩ := toTree_written hb h
  obtain ⟨x, hx, hx0⟩ := h0
  have hn : n = rows.length := by
    have := e2 x hx
    apply Nat.le_antisymm
    · apply Nat.le_of_not_lt
      intro hlt
      obtain ⟨_, _, _, hm⟩ := e3 _ hlt
      omega
    · omega
  subst hn
  refine ⟨e1, fun b hb => ?_⟩
  have hb' : b.branch.data.entries ∈ t'.branches.map (fun b => b.branch.data.entries) :=
    List.mem_map_of_mem hb
  rw [e4] at hb'
  obtain ⟨y, hy, e⟩ := List.mem_map.1 hb'
  have := h1 y hy
  rw [← e]
  congr 1
  omega

/-- C47 for every depth: a branch whose field is `d` structures deep gets only the first
`rows.length + 1 - d` values. -/
theorem C47_deep {env : Env} {places : Places} {g : Option Str} {fs : Fields} {rows : List fs.Val}
    {name : Str} {t t' : WTree} {f f' : FileW}
    (hb : (Shape.struct g fs).toTree rows (WTree.new name) = .ok t)
    (h : t.write env places f = (.ok t', f')) (h0 : ∃ x ∈ fs.leaves, x.1 = 0) :
    t'.data.entries = rows.length ∧
      t'.branches.map (fun b => b.branch.data.entries) =
        fs.leaves.map fun x => ((min rows.length (rows.length + 1 - x.1) : Nat) : Int) := by
  obtain ⟨n, e1, e2, e3, e4⟩ := toTree_written hb h
  obtain ⟨x, hx, hx0⟩ := h0
  have hn : n = rows.length := by
    have := e2 x hx
    apply Nat.le_antisymm
    · apply Nat.le_of_not_lt
      intro hlt
      obtain ⟨_, _, _, hm⟩ := e3 _ hlt
      omega
    · omega
  subst hn
  exact ⟨e1, e4⟩

/-- C47 is false: when all fields of a structure are structures, nothing is stored, however many values
there are. -/
theorem C47_nothing {env : Env} {places : Places} {g : Option Str} {fs : Fields} {rows : List fs.Val}
    {name : Str} {t t' : WTree} {f f' : FileW}
    (hb : (Shape.struct g fs).toTree rows (WTree.new name) = .ok t)
    (h : t.write env places f = (.ok t', f')) (h0 : ∀ x ∈ fs.leaves, x.1 ≠ 0) :
    t'.data.entries = 0 ∧ ∀ b ∈ t'.branches, b.branch.data.entries = 0 := by
  obtain ⟨n, e1, e2, e3, e4⟩ := toTree_written hb h
  have hn : n = 0 := by
    apply Nat.eq_zero_of_not_pos
    intro hlt
    obtain ⟨x, hx, hx0, -⟩ := e3 _ hlt
    exact h0 x hx hx0
  subst hn
  refine ⟨e1, fun b hb => ?_⟩
  have hb' : b.branch.data.entries ∈ t'.branches.map (fun b => b.branch.data.entries) :=
    List.mem_map_of_mem hb
  rw [e4] at hb'
  obtain ⟨y, hy, e⟩ := List.mem_map.1 hb'
  have := h0 y hy
  rw [← e]
  simp; omega

/-- C47 for structures whose fields are all stored in branches: the tree is the one made by giving each
field's values to a branch of its name. -/
theorem C47_flat {fs : Fields} (hf : fs.Flat) (rows : List fs.Val) (name : Str) :
    (Shape.struct none fs).toTree rows (WTree.new name) = buildTree name 1 (fs.columns rows) := by
  have h1 := Fields.flat_branches hf rows
  have h2 := Fields.flat_leaves hf rows
  have hd := Fields.flat_depth hf
  have hl : (fs.columns rows).length = fs.leaves.length := by
    have := congrArg List.length h2
    simpa using this.symm
  have h3 : ∀ (i : Nat) (hi : i < (fs.columns rows).length),
      (Shape.struct none fs).stream rows (0 + i) =
        ((fs.columns rows)[i].vals.map some).map (Option.map (fs.columns rows)[i].ty.marshal) := by
    intro i hi
    have hi' : i < fs.leaves.length := hl ▸ hi
    rw [Nat.zero_add, Shape.stream_eq rows hi']
    have e := congrArg (fun l => l[i]?) h2
    simp only [List.getElem?_map, List.getElem?_eq_getElem hi, List.getElem?_eq_getElem hi',
      Option.map_some, Option.some.injEq, Prod.mk.injEq] at e
    obtain ⟨e0, e1⟩ := e
    rw [e0, hd, ← e1]
    simp
  show (do
    let bs ← fs.writeBranches
    let t ← (Shape.struct none fs).pushBranches rows 0 bs (WTree.new name)
    pure { t with callbacks := t.callbacks + (fs.callbacks + 1) }) = _
  rw [h1, Fields.flat_callbacks hf]
  show (do
    let t ← (Shape.struct none fs).pushBranches rows 0 _ (WTree.new name)
    pure { t with callbacks := t.callbacks + (0 + 1) }) = _
  rw [Shape.pushBranches_cols h3]
  exact build_callbacks (fs.columns rows) (WTree.new name) 1

/-- A structure with a field of each depth. -/
def demoShape : Shape := .struct none
  (.cons { name := b! "a" } (.leaf .u8)
  (.cons { name := b! "s" } (.struct none
    (.cons { name := b! "x" } (.leaf .u8)
    (.cons { name := b! "u" } (.struct none (.cons { name := b! "y" } (.leaf .u8) .nil)) .nil))) .nil))

/-- Three of them. -/
def demoRows : List demoShape.Val :=
  [((1 : Nat), ((2 : Nat), ((3 : Nat), ()), ()), ()), ((4 : Nat), ((5 : Nat), ((6 : Nat), ()), ()), ()),
   ((7 : Nat), ((8 : Nat), ((9 : Nat), ()), ()), ())]

/-- The tree of a structure. -/
def shapeTree (s : Shape) (rows : List s.Val) : WTree := match s.toTree rows (WTree.new (b! "t")) with
  | .ok t => t
  | .error _ => WTree.new []

theorem ok_shapeTree {s : Shape} {rows : List s.Val} (h : isOk (s.toTree rows (WTree.new (b! "t"))) = true) :
    s.toTree rows (WTree.new (b! "t")) = .ok (shapeTree s rows) := by
  unfold shapeTree
  generalize s.toTree rows (WTree.new (b! "t")) = x at h
  cases x with
  | ok => rfl
  | error => cases h

/-- C47 is false for deep fields too: of three structures, the field `y` of the innermost one is stored
twice only. -/
theorem C47_false : ∃ t t' f', demoShape.toTree demoRows (WTree.new (b! "t")) = .ok t ∧
    t.write demoTreeEnv demoPlaces demoFile = (.ok t', f') ∧ t'.data.entries = 3 ∧
    t'.branches.map (fun b => b.branch.data.entries) = [3, 3, 2] := by
  have h0 : isOk ((shapeTree demoShape demoRows).write demoTreeEnv demoPlaces demoFile).1 = true := by
    decide +kernel
  obtain ⟨t', h⟩ := ok_result h0
  have hb : demoShape.toTree demoRows (WTree.new (b! "t")) = .ok (shapeTree demoShape demoRows) :=
    ok_shapeTree (by decide +kernel)
  obtain ⟨e1, e2⟩ := C47_deep hb h ⟨_, List.mem_cons_self, rfl⟩
  exact ⟨_, t', _, hb, h, e1, e2⟩

/-- The hypotheses of `C47_nothing` can be met: a structure in a structure, two values. -/
example : ∃ (fs : Fields) (rows : List fs.Val) (t t' : WTree) (f' : FileW), rows.length = 2 ∧
    (Shape.struct none fs).toTree rows (WTree.new (b! "t")) = .ok t ∧
    t.write demoTreeEnv demoPlaces demoFile = (.ok t', f') ∧ (∀ x ∈ fs.leaves, x.1 ≠ 0) ∧
    t'.data.entries = 0 := by
  let fs : Fields := .cons { name := b! "s" } (.struct none (.cons { name := b! "x" } (.leaf .u8) .nil)) .nil
  let rows : List fs.Val := [(((1 : Nat), ()), ()), (((2 : Nat), ()), ())]
  have h0 : isOk ((shapeTree (.struct none fs) rows).write demoTreeEnv demoPlaces demoFile).1 = true := by
    decide +kernel
  obtain ⟨t', h⟩ := ok_result h0
  have hb : (Shape.struct none fs).toTree rows (WTree.new (b! "t")) = .ok (shapeTree (.struct none fs) rows) :=
    ok_shapeTree (by decide +kernel)
  have hl : ∀ x ∈ fs.leaves, x.1 ≠ 0 := by
    intro x hx
    have e : fs.leaves.map Prod.fst = [1] := rfl
    have := List.mem_map_of_mem (f := Prod.fst) hx
    rw [e] at this
    simp at this
    omega
  exact ⟨fs, rows, _, t', _, rfl, hb, h, hl, (C47_nothing hb h hl).1⟩

/-- The hypotheses of `C47_stored_partial` can be met: a field and a structure with a field. -/
example : ∃ (fs : Fields) (rows : List fs.Val) (t t' : WTree) (f' : FileW), rows.length = 2 ∧
    (Shape.struct none fs).toTree rows (WTree.new (b! "t")) = .ok t ∧
    t.write demoTreeEnv demoPlaces demoFile = (.ok t', f') ∧ t'.branches.length = 2 ∧
    ∀ b ∈ t'.branches, b.branch.data.entries = 2 := by
  let fs : Fields := .cons { name := b! "a" } (.leaf .u8)
    (.cons { name := b! "s" } (.struct none (.cons { name := b! "x" } (.leaf .u8) .nil)) .nil)
  let rows : List fs.Val := [((9 : Nat), ((1 : Nat), ()), ()), ((8 : Nat), ((2 : Nat), ()), ())]
  have h0 : isOk ((shapeTree (.struct none fs) rows).write demoTreeEnv demoPlaces demoFile).1 = true := by
    decide +kernel
  obtain ⟨t', h⟩ := ok_result h0
  have hb : (Shape.struct none fs).toTree rows (WTree.new (b! "t")) = .ok (shapeTree (.struct none fs) rows) :=
    ok_shapeTree (by decide +kernel)
  have e : fs.leaves.map Prod.fst = [0, 1] := rfl
  have hl : ∀ x ∈ fs.leaves, x.1 ≤ 1 := by
    intro x hx
    have := List.mem_map_of_mem (f := Prod.fst) hx
    rw [e] at this
    simp at this
    omega
  have h1 := C47_stored_partial hb h ⟨_, List.mem_cons_self, rfl⟩ hl
  have h2 := congrArg List.length (C47_deep hb h ⟨_, List.mem_cons_self, rfl⟩).2
  simp only [List.length_map] at h2
  exact ⟨fs, rows, _, t', _, rfl, hb, h, h2, h1.2⟩

/-- The hypothesis of `C47_flat` can be met. -/
example : (Fields.cons { name := b! "a" } (.leaf .i32) (.cons { name := b! "b" } (.leaf .string) .nil)).Flat :=
  trivial

end Verif
