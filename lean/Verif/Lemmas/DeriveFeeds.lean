import Verif.Lemmas.Feeds
import Verif.Spec.DeriveRead
/-
The branches of a derived structure get their values from iterators that are late.
-/
namespace Verif

/-- What the branch of a field gets. -/
def FieldSlot.feed {α : Type} (rows : List α) (depth : Nat) (x : FieldSlot α) : Feed :=
  ⟨x.ty, x.name, List.replicate x.depth none ++ rows.map (fun v => some (x.get v)) ++
    List.replicate (depth - x.depth) none⟩

theorem within_map_eq {α β : Type} (l : List (FieldSlot α)) (p : FieldSlot α → β) (q : FieldSlot α → β)
    (h : ∀ x, p (x.within (fun v => v) 1) = q x) : (l.map (FieldSlot.within (fun v : α => v) 1)).map p = l.map q := by
  rw [List.map_map]
  exact List.map_congr_left fun x _ => h x

mutual
theorem Shape.slots_branches : (s : Shape) → (n : Str) →
    s.writeBranches (some n) = .ok ((s.slots n).map fun x => (x.name, x.ty))
  | .leaf _, _ => rfl
  | .struct _ fs, _ => by
    refine (Fields.slots_branches fs).trans (congrArg Except.ok ?_)
    exact (within_map_eq fs.slots (fun x => (x.name, x.ty)) (fun x => (x.name, x.ty)) fun _ => rfl).symm
theorem Fields.slots_branches : (fs : Fields) →
    fs.writeBranches = .ok (fs.slots.map fun x => (x.name, x.ty))
  | .nil => rfl
  | .cons o s fs => by
    unfold Fields.writeBranches Fields.slots
    rw [Shape.slots_branches s o.name, Fields.slots_branches fs, List.map_append, List.map_map, List.map_map]
    rfl
end

mutual
theorem Shape.slots_leaves : (s : Shape) → (n : Str) →
    s.leaves = (s.slots n).map fun x => (x.depth, fun v => x.ty.marshal (x.get v))
  | .leaf _, _ => rfl
  | .struct _ fs, _ => by
    refine (congrArg (List.map fun (x : Nat × (fs.Val → Wr Nat)) => (x.1 + 1, x.2)) (Fields.slots_leaves fs)).trans ?_
    refine (List.map_map ..).trans ?_
    exact (within_map_eq fs.slots (fun x => (x.depth, fun v => x.ty.marshal (x.get v))) _ fun _ => rfl).symm
theorem Fields.slots_leaves : (fs : Fields) →
    fs.leaves = fs.slots.map fun x => (x.depth, fun v => x.ty.marshal (x.get v))
  | .nil => rfl
  | .cons o s fs => by
    unfold Fields.leaves Fields.slots
    rw [Shape.slots_leaves s o.name, Fields.slots_leaves fs, List.map_append, List.map_map, List.map_map,
      List.map_map, List.map_map]
    rfl
end

theorem Shape.pushBranches_feeds {s : Shape} {rows : List s.Val} {feeds : List Feed} {j : Nat} {t : WTree}
    (h : ∀ (i : Nat) (hi : i < feeds.length),
      s.stream rows (j + i) = feeds[i].answers.map (Option.map feeds[i].ty.marshal)) :
    s.pushBranches rows j (feeds.map fun a => (a.name, a.ty)) t =
      feeds.foldlM (fun t a => t.newBranch a.ty a.name a.answers) t := by
  induction feeds generalizing j t with
  | nil => rfl
  | cons c cols ih =>
    rw [List.map_cons, List.foldlM_cons]
    unfold Shape.pushBranches
    have h0 := h 0 (by simp)
    simp only [List.getElem_cons_zero, Nat.add_zero] at h0
    rw [h0]
    refine congrArg (fun k => _ >>= k) (funext fun t1 => ih fun i hi => ?_)
    have := h (i + 1) (by simpa using hi)
    simp only [List.getElem_cons_succ] at this
    rw [← this]
    congr 1
    omega

theorem buildFeeds_callbacks (feeds : List Feed) (t : WTree) (k : Nat) :
    (do let t ← feeds.foldlM (fun t a => t.newBranch a.ty a.name a.answers) t
        pure { t with callbacks := t.callbacks + k }) =
      feeds.foldlM (fun t a => t.newBranch a.ty a.name a.answers) { t with callbacks := t.callbacks + k } := by
  induction feeds generalizing t with
  | nil => rfl
  | cons c cols ih =>
    rw [List.foldlM_cons, List.foldlM_cons]
    have e := pushBranch_callbacks t c.ty c.name (c.answers.map (Option.map c.ty.marshal)) k
    unfold WTree.newBranch at ih ⊢
    rw [e]
    cases t.pushBranch c.ty c.name (c.answers.map (Option.map c.ty.marshal)) with
    | error e => rfl
    | ok t1 => exact ih t1

/-- The tree of a structure is made from iterators that are late. -/
theorem toTree_feeds (g : Option Str) (fs : Fields) (rows : List fs.Val) (name : Str) :
    (Shape.struct g fs).toTree rows (WTree.new name) =
      buildFeeds name (fs.callbacks + 1) (fs.slots.map (FieldSlot.feed rows fs.depth)) := by
  have hl : fs.leaves.length = fs.slots.length := by
    rw [Fields.slots_leaves fs, List.length_map]
  have h3 : ∀ (i : Nat) (hi : i < (fs.slots.map (FieldSlot.feed rows fs.depth)).length),
      (Shape.struct g fs).stream rows (0 + i) =
        (fs.slots.map (FieldSlot.feed rows fs.depth))[i].answers.map
          (Option.map (fs.slots.map (FieldSlot.feed rows fs.depth))[i].ty.marshal) := by
    intro i hi
    have hi1 : i < fs.slots.length := by simpa using hi
    have hi' : i < fs.leaves.length := hl ▸ hi1
    rw [Nat.zero_add, Shape.stream_eq rows hi']
    have e : fs.leaves[i] = (fs.slots[i].depth, fun v => fs.slots[i].ty.marshal (fs.slots[i].get v)) := by
      have := congrArg (fun l => l[i]?) (Fields.slots_leaves fs)
      simpa [List.getElem?_map, List.getElem?_eq_getElem hi', List.getElem?_eq_getElem hi1] using this
    rw [e]
    have e2 : (fs.slots.map (FieldSlot.feed rows fs.depth))[i] = FieldSlot.feed rows fs.depth fs.slots[i] :=
      List.getElem_map _
    rw [e2]
    unfold FieldSlot.feed
    simp only [List.map_append, List.map_replicate, List.map_map, Option.map_none]
    rfl
  show (do
    let bs ← fs.writeBranches
    let t ← (Shape.struct g fs).pushBranches rows 0 bs (WTree.new name)
    pure { t with callbacks := t.callbacks + (fs.callbacks + 1) }) = _
  have e : (fs.slots.map fun x => (x.name, x.ty)) =
      (fs.slots.map (FieldSlot.feed rows fs.depth)).map fun a => (a.name, a.ty) := by
    rw [List.map_map]; rfl
  rw [Fields.slots_branches fs, e]
  show (do
    let t ← (Shape.struct g fs).pushBranches rows 0 _ (WTree.new name)
    pure { t with callbacks := t.callbacks + (fs.callbacks + 1) }) = _
  rw [Shape.pushBranches_feeds h3]
  refine (buildFeeds_callbacks _ _ _).trans ?_
  unfold buildFeeds
  congr 1
  show ({ WTree.new name with callbacks := 0 + (fs.callbacks + 1) } : WTree) = _
  rw [Nat.zero_add]

theorem FieldSlot.feed_steady {α : Type} (rows : List α) (depth : Nat) (x : FieldSlot α) :
    (x.feed rows depth).steady = if x.depth = 0 then rows.length else 0 := by
  unfold Feed.steady FieldSlot.feed
  dsimp only
  split
  · next h =>
    rw [h]
    induction rows with
    | nil => cases depth <;> rfl
    | cons v rows ih => simp
  · next h =>
    obtain ⟨d, hd⟩ := Nat.exists_eq_succ_of_ne_zero h
    rw [hd]
    rfl

theorem steadiest_slots {α : Type} (rows : List α) (depth : Nat) (l : List (FieldSlot α)) :
    steadiest (l.map (FieldSlot.feed rows depth)) = if l.any (fun x => x.depth == 0) then rows.length else 0 := by
  unfold steadiest
  rw [List.map_map]
  induction l with
  | nil => rfl
  | cons x l ih =>
    rw [List.map_cons, List.foldr_cons, ih, List.any_cons]
    show max (x.feed rows depth).steady _ = _
    rw [FieldSlot.feed_steady]
    by_cases h : x.depth = 0
    · have hb : (x.depth == 0) = true := beq_iff_eq.2 h
      rw [if_pos h, hb, Bool.true_or, if_pos rfl]
      split <;> omega
    · have hb : (x.depth == 0) = false := beq_eq_false_iff_ne.2 h
      rw [if_neg h, hb, Bool.false_or]
      split <;> omega

/-- What these iterators give. -/
theorem stored_slots (fs : Fields) (rows : List fs.Val) :
    storedColumns (fs.slots.map (FieldSlot.feed rows fs.depth)) = fs.kept rows := by
  unfold storedColumns Fields.kept Fields.storedCount
  rw [steadiest_slots, List.map_map]
  refine List.map_congr_left fun x hx => ?_
  show (⟨x.ty, x.name, _⟩ : Column) = _
  congr 1
  show ((x.feed rows fs.depth).answers.take _).filterMap id = _
  unfold FieldSlot.feed
  dsimp only
  rw [taken_stream, List.map_take]
  split
  · rfl
  · next h =>
    have h0 : x.depth ≠ 0 := fun e => h (List.any_eq_true.2 ⟨x, hx, beq_iff_eq.2 e⟩)
    rw [Nat.sub_eq_zero_of_le (by omega)]

/-- The tree of a structure is made of what is kept of it. -/
theorem toTree_madeOf {g : Option Str} {fs : Fields} {rows : List fs.Val} {name : Str} {t : WTree}
    (h : (Shape.struct g fs).toTree rows (WTree.new name) = .ok t) :
    MadeOf name (fs.callbacks + 1) (fs.kept rows) t :=
  ⟨_, stored_slots fs rows, (toTree_feeds g fs rows name).symm.trans h⟩

/-! ### The documented names -/

theorem within_column {α β : Type} (p : β → α) (x : FieldSlot α) (rows : List β) :
    x.column (rows.map p) = (x.within p 0).column rows := by
  show (⟨x.ty, x.name, (rows.map p).map x.get⟩ : Column) = ⟨x.ty, x.name, rows.map fun v => x.get (p v)⟩
  rw [List.map_map]; rfl

mutual
theorem Shape.stored_slots : (s : Shape) → (n m : Str) → (rows : List s.Val) →
    s.stored n rows = List.zipWith (fun (c : Column) n => (⟨c.ty, n, c.vals⟩ : Column))
      ((s.slots m).map (FieldSlot.column · rows)) (s.documentedNames n) ∧
      (s.documentedNames n).length = (s.slots m).length
  | .leaf t, n, m, rows => by
    refine ⟨?_, rfl⟩
    unfold Shape.stored Shape.slots Shape.documentedNames
    show ([⟨t, n, rows⟩] : List Column) = [⟨t, n, rows.map fun v => v⟩]
    congr 2
    exact (List.map_id rows).symm
  | .struct g fs, n, m, rows => by
    obtain ⟨h1, h2⟩ := Fields.stored_slots' fs g (some n) rows
    refine ⟨h1.trans ?_, h2.trans (List.length_map ..).symm⟩
    exact congrArg (fun l => List.zipWith (fun (c : Column) n => (⟨c.ty, n, c.vals⟩ : Column)) l
      (fs.documentedNames g (some n))) (within_map_eq fs.slots (fun x => x.column rows) (fun x => x.column rows) fun _ => rfl).symm
theorem Fields.stored_slots' : (fs : Fields) → (g parent : Option Str) → (rows : List fs.Val) →
    fs.stored g parent rows = List.zipWith (fun (c : Column) n => (⟨c.ty, n, c.vals⟩ : Column))
      (fs.slots.map (FieldSlot.column · rows)) (fs.documentedNames g parent) ∧
      (fs.documentedNames g parent).length = fs.slots.length
  | .nil, _, _, _ => ⟨rfl, rfl⟩
  | .cons o s fs, g, parent, rows => by
    obtain ⟨h1, h2⟩ := Shape.stored_slots s (documentedName o g parent) o.name (rows.map Prod.fst)
    obtain ⟨h3, h4⟩ := Fields.stored_slots' fs g parent (rows.map Prod.snd)
    unfold Fields.stored Fields.slots Fields.documentedNames
    rw [h1, h3, List.map_append, List.length_append, List.length_append, List.length_map, List.length_map, h2, h4]
    refine ⟨?_, rfl⟩
    rw [List.zipWith_append (by rw [List.length_map, List.length_map, h2])]
    rw [List.map_map, List.map_map]
    congr 2
    · exact List.map_congr_left fun x _ => within_column Prod.fst x rows
    · exact List.map_congr_left fun x _ => within_column Prod.snd x rows
end

/-- When fields are stored under their documented names and no field is deep, what is kept is what is read. -/
theorem kept_stored {fs : Fields} {g : Option Str} (rows : List fs.Val)
    (hn : fs.documentedNames g none = fs.slots.map FieldSlot.name) (h0 : ∃ x ∈ fs.slots, x.depth = 0)
    (h1 : ∀ x ∈ fs.slots, x.depth ≤ 1) : fs.kept rows = fs.stored g none rows := by
  rw [(Fields.stored_slots' fs g none rows).1, hn, List.zipWith_map]
  unfold Fields.kept
  have : ∀ l : List (FieldSlot fs.Val), (∀ x ∈ l, x.depth ≤ 1) →
      (l.map fun x => (⟨x.ty, x.name, (rows.map x.get).take (fs.storedCount rows.length x.depth)⟩ : Column)) =
      List.zipWith (fun (a b : FieldSlot fs.Val) => (⟨(a.column rows).ty, b.name, (a.column rows).vals⟩ : Column)) l l := by
    intro l hl
    induction l with
    | nil => rfl
    | cons x l ih =>
      rw [List.map_cons, List.zipWith_cons_cons, ih fun y hy => hl y (List.mem_cons_of_mem _ hy)]
      congr 1
      show (⟨x.ty, x.name, _⟩ : Column) = ⟨x.ty, x.name, rows.map x.get⟩
      congr 1
      apply List.take_of_length_le
      have := hl x List.mem_cons_self
      have hb : fs.slots.any (fun x => x.depth == 0) = true := by
        obtain ⟨y, hy, e⟩ := h0
        exact List.any_eq_true.2 ⟨y, hy, beq_iff_eq.2 e⟩
      unfold Fields.storedCount
      rw [if_pos hb, List.length_map]
      omega
  exact this fs.slots h1

end Verif
