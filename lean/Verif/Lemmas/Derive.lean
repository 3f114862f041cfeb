import Verif.Lemmas.TreeCounts
import Verif.Spec.Derive
namespace Verif

variable {α β : Type}

/-! ### Rounds with iterators that may go on after `None` -/

/-- What an iterator answers when asked the `k`-th time. -/
def answerAt {α} (l : List (Option α)) (k : Nat) : Option α := (l[k]?).join

/-- After `k` rounds: `c` is the name of a branch and what its iterator answers. -/
structure FedA (k : Nat) (c : Str × List (Option (Wr Nat))) (b : WBranch) : Prop where
  name : b.branch.name = c.1
  items : b.items = c.2.drop k
  entries : b.branch.data.entries = ((c.2.take k).filterMap id).length

/-- Whether it has answered `None` in the first `k` rounds. -/
def doneBy (k : Nat) (c : Str × List (Option (Wr Nat))) : Bool :=
  (List.range k).any fun i => (answerAt c.2 i).isNone

theorem doneBy_succ (k : Nat) (c : Str × List (Option (Wr Nat))) :
    doneBy (k + 1) c = (doneBy k c || (answerAt c.2 k).isNone) := by
  unfold doneBy
  rw [List.range_succ, List.any_append]
  simp

theorem FedA.step {k : Nat} {c : Str × List (Option (Wr Nat))} {b b' : WBranch} {n : Option Int}
    (h : FedA k c b) (ht : b.Took b' n) :
    FedA (k + 1) c b' ∧ n.isNone = (answerAt c.2 k).isNone := by
  have hd : c.2.drop (k + 1) = (c.2.drop k).tail := by rw [List.tail_drop]
  rcases n with _ | n
  · obtain ⟨h1, h3⟩ := ht.none rfl
    rw [h.items] at h1
    rcases h1 with ⟨h1, h2⟩ | h1
    · have hl := List.drop_eq_nil_iff.1 h1
      refine ⟨⟨ht.name.trans h.name, ?_, ?_⟩, ?_⟩
      · rw [h2, hd, h1]; rfl
      · rw [h3, h.entries, List.take_of_length_le hl, List.take_of_length_le (by omega)]
      · unfold answerAt; rw [List.getElem?_eq_none hl]; rfl
    · have hg : c.2[k]? = some none := by
        rw [← List.head?_drop, h1]; rfl
      refine ⟨⟨ht.name.trans h.name, ?_, ?_⟩, ?_⟩
      · rw [hd, h1]; rfl
      · rw [h3, h.entries, List.take_add_one, hg]; simp
      · unfold answerAt; rw [hg]; rfl
  · obtain ⟨x, h1, h2⟩ := ht.some rfl
    rw [h.items] at h1
    have hg : c.2[k]? = some (some x) := by
      rw [← List.head?_drop, h1]; rfl
    refine ⟨⟨ht.name.trans h.name, ?_, ?_⟩, ?_⟩
    · rw [hd, h1]; rfl
    · rw [h2, h.entries, List.take_add_one, hg, List.filterMap_append]; simp
    · unfold answerAt; rw [hg]; rfl

theorem writeRound_fedA {tn : Str} {cb k : Nat} {cols : List (Str × List (Option (Wr Nat)))}
    {bs bs' : List WBranch} {tot tot' : Int} {done : List Bool} {log : List (Nat × Event)} {f f' : FileW}
    (hb : All2 (FedA k) cols bs) (h : writeRound tn cb bs tot f = (.ok (bs', done, tot', log), f')) :
    All2 (FedA (k + 1)) cols bs' ∧ done = cols.map (fun c => (answerAt c.2 k).isNone) := by
  induction cols generalizing bs bs' tot tot' done log f f' with
  | nil =>
    cases hb.nil_left
    unfold writeRound at h
    cases Fs.ok_pure.1 h |>.1
    exact ⟨trivial, rfl⟩
  | cons c cols ih =>
    obtain ⟨b, bs, rfl, h1, h2⟩ := hb.cons_left
    unfold writeRound at h
    obtain ⟨⟨b1, n⟩, f1, h0, h⟩ := Fs.ok_bind.1 h
    have hf := h1.step (WBranch.write_took h0)
    obtain ⟨tot1, f2, h0, h⟩ := Fs.ok_bind.1 h
    obtain ⟨⟨bs1, done1, tot2, log1⟩, f3, h0, h⟩ := Fs.ok_bind.1 h
    obtain ⟨r1, r2⟩ := ih h2 h0
    cases Fs.ok_pure.1 h |>.1
    exact ⟨⟨hf.1, r1⟩, by rw [List.map_cons, ← r2, ← hf.2]⟩

theorem zip_doneBy (k : Nat) (cols : List (Str × List (Option (Wr Nat)))) :
    List.zipWith (fun a b => a || b) (cols.map (doneBy k)) (cols.map fun c => (answerAt c.2 k).isNone) =
      cols.map (doneBy (k + 1)) := by
  induction cols with
  | nil => rfl
  | cons c cols ih => rw [List.map_cons, List.map_cons, List.zipWith_cons_cons, ih, List.map_cons, doneBy_succ]

/-- The rounds go on until every iterator has once answered `None`. -/
theorem writeRounds_fedA {cols : List (Str × List (Option (Wr Nat)))} :
    ∀ {fuel k : Nat} {t t' : WTree} {f f' : FileW},
    All2 (FedA k) cols t.branches → t.data.entries = k →
    writeRounds fuel (cols.map (doneBy k)) t f = (.ok t', f') →
    ∃ n, k ≤ n ∧ t'.data.entries = n ∧ All2 (FedA (n + 1)) cols t'.branches ∧
      (∀ c ∈ cols, doneBy (n + 1) c = true) ∧
      ∀ m, k ≤ m → m < n → ∃ c ∈ cols, doneBy (m + 1) c = false
  | 0, k, t, t', f, f', _, _, h => by
    unfold writeRounds at h
    simp [Fs.ok_panic] at h
  | fuel + 1, k, t, t', f, f', hb, he, h => by
    unfold writeRounds at h
    obtain ⟨⟨bs, done, tot, log⟩, f1, h0, h⟩ := Fs.ok_bind.1 h
    obtain ⟨r1, r2⟩ := writeRound_fedA hb h0
    simp only [r2, zip_doneBy] at h
    split at h
    · next hd =>
      cases Fs.ok_pure.1 h |>.1
      refine ⟨k, Nat.le_refl _, he, r1, ?_, fun m h1 h2 => by omega⟩
      simpa using hd
    · next hd =>
      obtain ⟨n, e1, e2, e3, e4, e5⟩ := writeRounds_fedA (k := k + 1)
        (t := { t with branches := bs
                       data := { t.data with totBytes := t.data.totBytes + tot
                                             entries := t.data.entries + 1 }
                       log := t.log ++ calls t.callbacks .before ++ log })
        r1 (by simp [he]) h
      refine ⟨n, by omega, e2, e3, e4, fun m h1 h2 => ?_⟩
      rcases Nat.eq_or_lt_of_le h1 with rfl | h1
      · simpa using hd
      · exact e5 m h1 h2

theorem FedA.same {k : Nat} {cols : List (Str × List (Option (Wr Nat)))} {bs bs' : List WBranch}
    (h : All2 (FedA k) cols bs) (h' : All2 WBranch.Same bs bs') : All2 (FedA k) cols bs' :=
  h.trans (fun _ _ _ h1 g1 => ⟨g1.name.trans h1.name, g1.items.trans h1.items,
    g1.entries.trans h1.entries⟩) h'

theorem WTree.write_fedA {env : Env} {places : Places} {cols : List (Str × List (Option (Wr Nat)))}
    {t t' : WTree} {f f' : FileW} (hb : All2 (FedA 0) cols t.branches) (he : t.data.entries = 0)
    (h : t.write env places f = (.ok t', f')) :
    ∃ n : Nat, t'.data.entries = n ∧ All2 (FedA (n + 1)) cols t'.branches ∧
      (∀ c ∈ cols, doneBy (n + 1) c = true) ∧ ∀ m, m < n → ∃ c ∈ cols, doneBy (m + 1) c = false := by
  unfold WTree.write at h
  obtain ⟨t1, f1, h0, h⟩ := Fs.ok_bind.1 h
  have e : (t.branches.map fun _ => false) = cols.map (doneBy 0) :=
    Eq.symm <| hb.map_eq fun _ _ _ => rfl
  rw [e] at h0
  obtain ⟨n, e1, e2, e3, e4, e5⟩ := writeRounds_fedA (k := 0) hb he h0
  obtain ⟨g1, g2, g3⟩ := WTree.close_same h
  exact ⟨n, by rw [g2, e2], FedA.same e3 g1, e4, fun m => e5 m (Nat.zero_le _)⟩

theorem WBranch.new_fedA {ty : Ty} {name : Str} {items : List (Option (Wr Nat))} {iobits : Nat}
    {b : WBranch} {sis : List StreamerInfo} (h : WBranch.new ty name items iobits = .ok (b, sis)) :
    FedA 0 (name, items) b := by
  unfold WBranch.new at h
  obtain ⟨leaf, h0, h⟩ := Res.ok_bind.1 h
  simp only at h
  split at h
  · obtain ⟨cn, h1, h⟩ := Res.ok_bind.1 h
    obtain ⟨si, h2, h⟩ := Res.ok_bind.1 h
    cases h
    exact ⟨rfl, by simp, by simp [Branch.data]⟩
  · cases h
    exact ⟨rfl, by simp, by simp [Branch.data]⟩
  · cases h
    exact ⟨rfl, by simp, by simp [Branch.data]⟩

/-! ### What comes out of the channels -/

/-- One structure and its fields, round by round: `xs` is what its function gets. -/
def Fields.rounds (fs : Fields) : List (Option fs.Val) → fs.Cells → List (List (Option (Wr Nat)))
  | [], _ => []
  | v :: xs, c =>
    let c := fs.send v (fs.before c)
    fs.answers c :: fs.rounds xs (fs.taken c)

/-- A field, round by round: `xs` is what is sent to it. -/
def Shape.fieldRounds (s : Shape) : List (Option s.Val) → s.Cell → List (List (Option (Wr Nat)))
  | [], _ => []
  | v :: xs, c =>
    let c := s.send v (s.before c)
    s.answers c :: s.fieldRounds xs (s.taken c)

theorem Shape.rounds_struct {g : Option Str} {fs : Fields} :
    (xs : List (Option fs.Val)) → (c : (Shape.struct g fs).Cell) →
    (Shape.struct g fs).rounds xs c = fs.rounds xs c.2
  | [], _ => rfl
  | v :: xs, c => congrArg (List.cons _)
      (Shape.rounds_struct xs ((Shape.struct g fs).taken ((Shape.struct g fs).before ((Shape.struct g fs).send v c))))

theorem Fields.rounds_cons {o : FieldOpts} {s : Shape} {fs : Fields} :
    (xs : List (Option (s.Val × fs.Val))) → (c : s.Cell × fs.Cells) →
    (Fields.cons o s fs).rounds xs c =
      List.zipWith (fun a b => a ++ b) (s.fieldRounds (xs.map (Option.map Prod.fst)) c.1)
        (fs.rounds (xs.map (Option.map Prod.snd)) c.2)
  | [], _ => rfl
  | v :: xs, c => congrArg (List.cons _)
      (Fields.rounds_cons xs ((Fields.cons o s fs).taken ((Fields.cons o s fs).send v ((Fields.cons o s fs).before c))))

theorem Shape.fieldRounds_leaf {t : Ty} : (xs : List (Option t.Val)) → (c : Option t.Val) →
    (Shape.leaf t).fieldRounds xs c = xs.map fun v => [Option.map t.marshal v]
  | [], _ => rfl
  | _ :: xs, _ => congrArg (List.cons _) (Shape.fieldRounds_leaf xs none)

theorem Shape.fieldRounds_struct {g : Option Str} {fs : Fields} : (xs : List (Option fs.Val)) →
    (c : Option fs.Val × fs.Cells) →
    (Shape.struct g fs).fieldRounds xs c = fs.rounds ((c.1 :: xs).dropLast) c.2
  | [], _ => rfl
  | v :: xs, c => congrArg (List.cons _) (Shape.fieldRounds_struct xs
      ((Shape.struct g fs).taken ((Shape.struct g fs).send v ((Shape.struct g fs).before c))))

/-- The stream `d` rounds later. -/
def late {α} (d : Nat) (xs : List (Option α)) (k : Nat) : Option α :=
  if k < d then none else answerAt xs (k - d)

theorem late_map {α β} (p : α → β) (d : Nat) (xs : List (Option α)) (k : Nat) :
    late d (xs.map (Option.map p)) k = (late d xs k).map p := by
  unfold late answerAt
  split
  · rfl
  · rw [List.getElem?_map]
    cases xs[k - d]? with
    | none => rfl
    | some x => rfl

theorem late_shift {α} (d : Nat) (xs : List (Option α)) {k : Nat} (hk : k < xs.length) :
    late d ((none :: xs).dropLast) k = late (d + 1) xs k := by
  unfold late answerAt
  by_cases h : k < d
  · rw [if_pos h, if_pos (by omega)]
  · rw [if_neg h]
    by_cases h' : k = d
    · subst h'
      rw [if_pos (by omega), Nat.sub_self, List.getElem?_dropLast, if_pos (by simp; omega)]
      rfl
    · rw [if_neg (by omega), List.getElem?_dropLast, if_pos (by simp; omega),
        show k - d = (k - (d + 1)) + 1 by omega, List.getElem?_cons_succ]

/-- The rows of what comes out `l.1` rounds late, for `l` in `ls`. -/
def lateRows {α} (ls : List (Nat × (α → Wr Nat))) (xs : List (Option α)) : List (List (Option (Wr Nat))) :=
  (List.range xs.length).map fun k => ls.map fun x => (late x.1 xs k).map x.2

theorem lateRows_leaf {α} (p : α → Wr Nat) (xs : List (Option α)) :
    (xs.map fun v => [Option.map p v]) = lateRows [(0, p)] xs := by
  unfold lateRows
  apply List.ext_getElem
  · simp
  · intro k h1 h2
    simp only [List.getElem_map, List.getElem_range, List.map_cons, List.map_nil]
    unfold late answerAt
    rw [if_neg (by omega), Nat.sub_zero, List.getElem?_eq_getElem (by simpa using h1)]
    rfl

theorem lateRows_shift {α} (ls : List (Nat × (α → Wr Nat))) (xs : List (Option α)) :
    lateRows ls ((none :: xs).dropLast) = lateRows (ls.map fun x => (x.1 + 1, x.2)) xs := by
  unfold lateRows
  simp only [List.length_dropLast, List.length_cons, Nat.add_sub_cancel]
  apply List.map_congr_left
  intro k hk
  rw [List.map_map]
  apply List.map_congr_left
  intro x _
  rw [late_shift _ _ (List.mem_range.1 hk)]
  rfl

theorem lateRows_nil {α} (xs : List (Option α)) : lateRows [] xs = List.replicate xs.length [] := by
  unfold lateRows
  apply List.ext_getElem
  · simp
  · intro k _ _; simp

theorem lateRows_pair {α β} (ls : List (Nat × (α → Wr Nat))) (rs : List (Nat × (β → Wr Nat)))
    (xs : List (Option (α × β))) :
    List.zipWith (fun a b => a ++ b) (lateRows ls (xs.map (Option.map Prod.fst)))
      (lateRows rs (xs.map (Option.map Prod.snd))) =
    lateRows ((ls.map fun x => (x.1, fun v => x.2 v.1)) ++ (rs.map fun x => (x.1, fun v => x.2 v.2))) xs := by
  unfold lateRows
  apply List.ext_getElem
  · simp
  · intro k h1 h2
    simp only [List.getElem_zipWith, List.getElem_map, List.getElem_range, List.map_append, List.map_map]
    congr 1
    · apply List.map_congr_left
      intro x _
      simp only [Function.comp_def]
      rw [late_map, Option.map_map]
      rfl
    · apply List.map_congr_left
      intro x _
      simp only [Function.comp_def]
      rw [late_map, Option.map_map]
      rfl

theorem Fields.rounds_nil : (xs : List (Option Unit)) → Fields.nil.rounds xs () = List.replicate xs.length []
  | [] => rfl
  | _ :: xs => congrArg (List.cons _) (Fields.rounds_nil xs)

mutual
theorem Shape.fieldRounds_eq : (s : Shape) → (xs : List (Option s.Val)) →
    s.fieldRounds xs s.empty = lateRows s.leaves xs
  | .leaf t, xs => (Shape.fieldRounds_leaf xs none).trans (lateRows_leaf t.marshal xs)
  | .struct _ fs, xs => (Shape.fieldRounds_struct xs (none, fs.empty)).trans
      ((Fields.rounds_eq fs ((none :: xs).dropLast)).trans (lateRows_shift fs.leaves xs))
theorem Fields.rounds_eq : (fs : Fields) → (xs : List (Option fs.Val)) →
    fs.rounds xs fs.empty = lateRows fs.leaves xs
  | .nil, xs => (Fields.rounds_nil xs).trans (lateRows_nil xs).symm
  | .cons _ s fs, xs => (Fields.rounds_cons xs (s.empty, fs.empty)).trans
      ((congr (congrArg (List.zipWith fun a b => a ++ b) (Shape.fieldRounds_eq s _)) (Fields.rounds_eq fs _)).trans
        (lateRows_pair s.leaves fs.leaves xs))
end

mutual
theorem Shape.leaves_late (s : Shape) : ∀ x ∈ s.leaves, x.1 ≤ s.depth := by
  match s with
  | .leaf t => intro x hx; unfold Shape.leaves at hx; simp at hx; subst hx; simp [Shape.depth]
  | .struct g fs =>
    intro x hx
    unfold Shape.leaves at hx
    obtain ⟨y, hy, rfl⟩ := List.mem_map.1 hx
    have := Fields.leaves_late fs y hy
    unfold Shape.depth
    simpa using this
theorem Fields.leaves_late (fs : Fields) : ∀ x ∈ fs.leaves, x.1 ≤ fs.depth := by
  match fs with
  | .nil => intro x hx; unfold Fields.leaves at hx; cases hx
  | .cons o s fs =>
    intro x hx
    unfold Fields.leaves at hx
    unfold Fields.depth
    rcases List.mem_append.1 hx with hx | hx
    · obtain ⟨y, hy, rfl⟩ := List.mem_map.1 hx
      exact Nat.le_trans (Shape.leaves_late s y hy) (Nat.le_max_left ..)
    · obtain ⟨y, hy, rfl⟩ := List.mem_map.1 hx
      exact Nat.le_trans (Fields.leaves_late fs y hy) (Nat.le_max_right ..)
end

theorem late_some {α} (l : Nat) (rows : List α) (d k : Nat) :
    late l (rows.map some ++ List.replicate d none) k = if k < l then none else rows[k - l]? := by
  unfold late answerAt
  split
  · rfl
  · by_cases h : k - l < rows.length
    · rw [List.getElem?_append_left (by simpa using h), List.getElem?_map, List.getElem?_eq_getElem h]; rfl
    · rw [List.getElem?_append_right (by simpa using h), List.getElem?_eq_none (l := rows) (by omega),
        List.getElem?_replicate]
      split <;> rfl

theorem lateRows_col {α} (ls : List (Nat × (α → Wr Nat))) (xs : List (Option α)) {j : Nat} (hj : j < ls.length) :
    ((lateRows ls xs).map fun r => r.getD j none) =
      (List.range xs.length).map fun k => (late ls[j].1 xs k).map ls[j].2 := by
  unfold lateRows
  rw [List.map_map]
  apply List.map_congr_left
  intro k _
  simp only [Function.comp_def, List.getD_eq_getElem?_getD, List.getElem?_map, List.getElem?_eq_getElem hj]
  rfl

theorem late_column {α} (p : α → Wr Nat) (rows : List α) {l d : Nat} (hl : l ≤ d) :
    ((List.range (rows.length + d)).map fun k => (late l (rows.map some ++ List.replicate d none) k).map p) =
      List.replicate l none ++ rows.map (fun v => some (p v)) ++ List.replicate (d - l) none := by
  apply List.ext_getElem?
  intro k
  rw [List.getElem?_map]
  by_cases hk : k < rows.length + d
  · rw [List.getElem?_range hk, Option.map_some, late_some]
    by_cases h1 : k < l
    · rw [if_pos h1, List.append_assoc, List.getElem?_append_left (by simpa using h1),
        List.getElem?_replicate, if_pos h1]; rfl
    · rw [if_neg h1, List.append_assoc, List.getElem?_append_right (by simpa using h1), List.length_replicate]
      by_cases h2 : k - l < rows.length
      · rw [List.getElem?_append_left (by simpa using h2), List.getElem?_map, List.getElem?_eq_getElem h2]; rfl
      · rw [List.getElem?_append_right (by simpa using h2), List.getElem?_eq_none (l := rows) (by omega),
          List.getElem?_replicate, if_pos (by simp; omega)]; rfl
  · rw [List.getElem?_eq_none (by simpa using hk), List.getElem?_eq_none (by simp; omega)]; rfl

/-- What the `j`-th branch of a structure answers. -/
theorem Shape.stream_eq {g : Option Str} {fs : Fields} (rows : List fs.Val) {j : Nat} (hj : j < fs.leaves.length) :
    (Shape.struct g fs).stream rows j =
      List.replicate fs.leaves[j].1 none ++ rows.map (fun v => some (fs.leaves[j].2 v)) ++
        List.replicate (fs.depth - fs.leaves[j].1) none := by
  have hl := Fields.leaves_late fs fs.leaves[j] (List.getElem_mem hj)
  have e : (Shape.struct g fs).rounds (rows.map some ++ List.replicate fs.depth none) (Shape.struct g fs).empty =
      lateRows fs.leaves (rows.map some ++ List.replicate fs.depth none) :=
    (Shape.rounds_struct _ _).trans (Fields.rounds_eq fs _)
  have e' : (Shape.struct g fs).stream rows j =
      (lateRows fs.leaves (rows.map some ++ List.replicate fs.depth none)).map fun r => r.getD j none :=
    congrArg (List.map fun (r : List (Option (Wr Nat))) => r.getD j none) e
  rw [e', lateRows_col _ _ hj, ← late_column _ _ hl]
  simp

theorem answerAt_stream (p : α → β) (rows : List α) (l d k : Nat) :
    answerAt (List.replicate l none ++ rows.map (fun v => some (p v)) ++ List.replicate d none) k =
      if k < l then none else (rows[k - l]?).map p := by
  unfold answerAt
  rw [List.append_assoc]
  by_cases h1 : k < l
  · rw [if_pos h1, List.getElem?_append_left (by simpa using h1), List.getElem?_replicate, if_pos h1]; rfl
  · rw [if_neg h1, List.getElem?_append_right (by simpa using h1), List.length_replicate]
    by_cases h2 : k - l < rows.length
    · rw [List.getElem?_append_left (by simpa using h2), List.getElem?_map, List.getElem?_eq_getElem h2]; rfl
    · rw [List.getElem?_append_right (by simpa using h2), List.getElem?_eq_none (l := rows) (by omega),
        List.getElem?_replicate]
      split <;> rfl

theorem taken_stream (p : α → β) (rows : List α) (l d n : Nat) :
    ((List.replicate l none ++ rows.map (fun v => some (p v)) ++ List.replicate d none).take n).filterMap id =
      (rows.take (n - l)).map p := by
  rw [List.append_assoc, List.take_append, List.filterMap_append, List.take_append, List.filterMap_append,
    List.take_replicate, List.take_replicate]
  have hn : ∀ m, (List.replicate m (none : Option β)).filterMap id = [] := by
    intro m
    rw [List.filterMap_eq_nil_iff]
    intro a ha
    rw [(List.mem_replicate.1 ha).2]; rfl
  rw [hn, hn, List.nil_append, List.append_nil, List.length_replicate, ← List.map_take, List.filterMap_map]
  rw [← List.filterMap_eq_map]
  rfl

theorem doneBy_stream {name : Str} (p : α → Wr Nat) (rows : List α) (l d m : Nat) :
    doneBy (m + 1) (name, List.replicate l none ++ rows.map (fun v => some (p v)) ++ List.replicate d none) =
      decide (0 < l ∨ rows.length ≤ m) := by
  unfold doneBy
  simp only [answerAt_stream]
  rw [Bool.eq_iff_iff, List.any_eq_true, decide_eq_true_iff]
  constructor
  · rintro ⟨i, hi, h⟩
    by_cases hl : 0 < l
    · exact .inl hl
    · right
      rw [if_neg (by omega)] at h
      have : rows[i - l]? = none := by simpa using h
      have := List.getElem?_eq_none_iff.1 this
      have := List.mem_range.1 hi
      omega
  · rintro (h | h)
    · exact ⟨0, List.mem_range.2 (by omega), by rw [if_pos h]; rfl⟩
    · by_cases hl : 0 < l
      · exact ⟨0, List.mem_range.2 (by omega), by rw [if_pos hl]; rfl⟩
      · refine ⟨m, List.mem_range.2 (by omega), ?_⟩
        rw [if_neg (by omega), List.getElem?_eq_none (by omega)]; rfl

/-- The branches of a structure with what they answer. -/
def Shape.pushed (s : Shape) (rows : List s.Val) : Nat → List (Str × Ty) → List (Str × List (Option (Wr Nat)))
  | _, [] => []
  | j, x :: bs => (x.1, s.stream rows j) :: s.pushed rows (j + 1) bs

theorem Shape.pushBranches_fedA {s : Shape} {rows : List s.Val} {bs : List (Str × Ty)} {j : Nat}
    {done : List (Str × List (Option (Wr Nat)))} {t t' : WTree} (ht : All2 (FedA 0) done t.branches)
    (h : s.pushBranches rows j bs t = .ok t') :
    All2 (FedA 0) (done ++ s.pushed rows j bs) t'.branches ∧
      t' = { t with branches := t'.branches, sinfos := t'.sinfos } := by
  induction bs generalizing j done t with
  | nil => cases h; exact ⟨by simpa [Shape.pushed] using ht, rfl⟩
  | cons x bs ih =>
    obtain ⟨n, ty⟩ := x
    unfold Shape.pushBranches at h
    obtain ⟨t1, h0, h⟩ := Res.ok_bind.1 h
    obtain ⟨b, sis, h1, h2, -⟩ := WTree.pushBranch_ok h0
    have := ih (done := done ++ [(n, s.stream rows j)]) (t := t1)
      (by rw [h2]; exact ht.snoc (WBranch.new_fedA h1)) h
    refine ⟨by simpa [Shape.pushed] using this.1, ?_⟩
    rw [this.2, h2]

mutual
theorem Shape.writeBranches_length : (s : Shape) → (n : Option Str) → (bs : List (Str × Ty)) →
    s.writeBranches n = .ok bs → bs.length = s.leaves.length
  | .leaf t, some n, bs, h => by cases h; rfl
  | .leaf t, none, bs, h => by cases h
  | .struct g fs, _, bs, h => by
    have := Fields.writeBranches_length fs bs h
    rw [this]
    unfold Shape.leaves
    rw [List.length_map]
theorem Fields.writeBranches_length : (fs : Fields) → (bs : List (Str × Ty)) →
    fs.writeBranches = .ok bs → bs.length = fs.leaves.length
  | .nil, bs, h => by cases h; rfl
  | .cons o s fs, bs, h => by
    obtain ⟨l, h0, h⟩ := Res.ok_bind.1 h
    obtain ⟨r, h1, h⟩ := Res.ok_bind.1 h
    cases h
    have e1 := Shape.writeBranches_length s _ l h0
    have e2 := Fields.writeBranches_length fs r h1
    unfold Fields.leaves
    simp [e1, e2]
end

theorem Shape.pushed_eq {g : Option Str} {fs : Fields} (rows : List fs.Val) (bs : List (Str × Ty)) {j : Nat}
    (h : j + bs.length = fs.leaves.length) :
    (Shape.struct g fs).pushed rows j bs =
      List.zipWith (fun x y => (x.1, List.replicate y.1 none ++ rows.map (fun v => some (y.2 v)) ++
        List.replicate (fs.depth - y.1) none)) bs (fs.leaves.drop j) := by
  induction bs generalizing j with
  | nil => rfl
  | cons x bs ih =>
    have hj : j < fs.leaves.length := by rw [← h, List.length_cons]; omega
    show (x.1, (Shape.struct g fs).stream rows j) :: (Shape.struct g fs).pushed rows (j + 1) bs = _
    rw [List.drop_eq_getElem_cons hj, List.zipWith_cons_cons, ← ih (by rw [← h, List.length_cons]; omega),
      ← Shape.stream_eq rows hj]

/-! ### Flat structures -/

theorem Fields.flat_depth : {fs : Fields} → fs.Flat → fs.depth = 0
  | .nil, _ => rfl
  | .cons _ (.leaf t) fs, h => by
    unfold Fields.depth
    rw [Fields.flat_depth (fs := fs) h]
    rfl
  | .cons _ (.struct ..) _, h => h.elim

theorem Fields.flat_callbacks : {fs : Fields} → fs.Flat → fs.callbacks = 0
  | .nil, _ => rfl
  | .cons _ (.leaf t) fs, h => by
    unfold Fields.callbacks
    rw [Fields.flat_callbacks (fs := fs) h]
    rfl
  | .cons _ (.struct ..) _, h => h.elim

theorem Fields.flat_branches : {fs : Fields} → fs.Flat → (rows : List fs.Val) →
    fs.writeBranches = .ok ((fs.columns rows).map fun c => (c.name, c.ty))
  | .nil, _, _ => rfl
  | .cons o (.leaf t) fs, h, rows => by
    have := Fields.flat_branches (fs := fs) h (rows.map Prod.snd)
    unfold Fields.writeBranches Fields.columns
    rw [this]
    rfl
  | .cons _ (.struct ..) _, h, _ => h.elim

theorem flat_step (t : Ty) (name : Str) {β : Type} (ls : List (Nat × (β → Wr Nat))) (rows : List (t.Val × β)) :
    (((0, fun (v : t.Val × β) => t.marshal v.1) ::
        (ls.map fun x => (x.1, fun (v : t.Val × β) => x.2 v.2))).map
          fun x => (x.1, rows.map fun v => some (x.2 v))) =
      (0, (((⟨t, name, rows.map Prod.fst⟩ : Column).vals.map some).map (Option.map t.marshal))) ::
        (ls.map fun x => (x.1, (rows.map Prod.snd).map fun v => some (x.2 v))) := by
  rw [List.map_cons]
  congr 1
  · simp [Function.comp_def]
  · simp [Function.comp_def]

theorem Fields.flat_leaves : {fs : Fields} → fs.Flat → (rows : List fs.Val) →
    (fs.leaves.map fun x => (x.1, rows.map fun v => some (x.2 v))) =
      (fs.columns rows).map fun c => (0, (c.vals.map some).map (Option.map c.ty.marshal))
  | .nil, _, _ => rfl
  | .cons o (.leaf t) fs, h, rows => by
    have := Fields.flat_leaves (fs := fs) h (rows.map Prod.snd)
    exact (flat_step t o.name fs.leaves rows).trans (congrArg (List.cons _) this)
  | .cons _ (.struct ..) _, h, _ => h.elim

theorem Shape.pushBranches_cols {s : Shape} {rows : List s.Val} {cols : List Column} {j : Nat} {t : WTree}
    (h : ∀ (i : Nat) (hi : i < cols.length),
      s.stream rows (j + i) = (cols[i].vals.map some).map (Option.map cols[i].ty.marshal)) :
    s.pushBranches rows j (cols.map fun c => (c.name, c.ty)) t =
      cols.foldlM (fun t c => t.newBranch c.ty c.name (c.vals.map some)) t := by
  induction cols generalizing j t with
  | nil => rfl
  | cons c cols ih =>
    rw [List.map_cons, List.foldlM_cons]
    unfold Shape.pushBranches
    have h0 := h 0 (by simp)
    simp only [List.getElem_cons_zero, Nat.add_zero] at h0
    rw [h0]
    refine congrArg (fun k => _ >>= k) (funext fun t1 => ih fun i hi => ?_)
    have := h (i + 1) (by simpa using hi)
    simp only [List.getElem_cons_succ] at this
    rw [← this]
    congr 1
    omega

theorem pushBranch_callbacks (t : WTree) (ty : Ty) (name : Str) (items : List (Option (Wr Nat))) (k : Nat) :
    WTree.pushBranch { t with callbacks := t.callbacks + k } ty name items =
      (do let t ← t.pushBranch ty name items; pure { t with callbacks := t.callbacks + k }) := by
  unfold WTree.pushBranch
  cases WBranch.new ty name items t.data.iobits with
  | error e => rfl
  | ok x =>
    obtain ⟨b, sis⟩ := x
    show (if sis = [] then _ else _) = ((if sis = [] then _ else _ : Res WTree) >>= _)
    by_cases h : sis = []
    · rw [if_pos h, if_pos h]; rfl
    · rw [if_neg h, if_neg h]
      cases t.sinfos <;> rfl

theorem build_callbacks (cols : List Column) (t : WTree) (k : Nat) :
    (do let t ← cols.foldlM (fun t c => t.newBranch c.ty c.name (c.vals.map some)) t
        pure { t with callbacks := t.callbacks + k }) =
      cols.foldlM (fun t c => t.newBranch c.ty c.name (c.vals.map some)) { t with callbacks := t.callbacks + k } := by
  induction cols generalizing t with
  | nil => rfl
  | cons c cols ih =>
    rw [List.foldlM_cons, List.foldlM_cons]
    have e := pushBranch_callbacks t c.ty c.name ((c.vals.map some).map (Option.map c.ty.marshal)) k
    unfold WTree.newBranch at ih ⊢
    rw [e]
    cases t.pushBranch c.ty c.name ((c.vals.map some).map (Option.map c.ty.marshal)) with
    | error e => rfl
    | ok t1 => exact ih t1

end Verif
