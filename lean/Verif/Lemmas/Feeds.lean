import Verif.Lemmas.TreeSession
import Verif.Lemmas.Derive
import Verif.Spec.Feeds
/-
Writing a tree from iterators that may pause.
-/
namespace Verif

/-! ### The iterators -/

theorem answerAt_cons_zero {α : Type} (x : Option α) (l : List (Option α)) : answerAt (x :: l) 0 = x := by
  unfold answerAt; simp

theorem answerAt_cons_succ {α : Type} (x : Option α) (l : List (Option α)) (k : Nat) :
    answerAt (x :: l) (k + 1) = answerAt l k := by
  unfold answerAt; simp

theorem steady_le {α : Type} (l : List (Option α)) (k : Nat) :
    ((List.range k).any fun i => (answerAt l i).isNone) = decide ((l.takeWhile Option.isSome).length < k) := by
  induction k generalizing l with
  | zero => simp
  | succ k ih =>
    cases l with
    | nil =>
      simp only [List.takeWhile_nil, List.length_nil, Nat.zero_lt_succ, decide_true, List.any_eq_true]
      exact ⟨0, by simp, by unfold answerAt; simp⟩
    | cons x l =>
      rw [List.range_succ_eq_map, List.any_cons, List.any_map]
      have e : ((fun i => (answerAt (x :: l) i).isNone) ∘ Nat.succ) = fun i => (answerAt l i).isNone := by
        funext i
        exact congrArg Option.isNone (answerAt_cons_succ x l i)
      rw [e, ih, answerAt_cons_zero]
      cases x with
      | none => simp
      | some x => simp

/-- The name and what a branch gets. -/
def Feed.raw (a : Feed) : Str × List (Option (Wr Nat)) := (a.name, a.answers.map (Option.map a.ty.marshal))

theorem answerAt_map {α β : Type} (g : α → β) (l : List (Option α)) (k : Nat) :
    answerAt (l.map (Option.map g)) k = (answerAt l k).map g := by
  unfold answerAt
  rw [List.getElem?_map]
  rcases l[k]? with _ | _ | _ <;> rfl

theorem Feed.doneBy (a : Feed) (k : Nat) : doneBy k a.raw = decide (a.steady < k) := by
  unfold Verif.doneBy Feed.raw Feed.steady
  rw [← steady_le]
  congr 1
  funext i
  rw [answerAt_map]
  simp

theorem steadiest_le {feeds : List Feed} {n : Nat} : steadiest feeds ≤ n ↔ ∀ a ∈ feeds, a.steady ≤ n := by
  unfold steadiest
  induction feeds with
  | nil => simp
  | cons a feeds ih =>
    simp only [List.map_cons, List.foldr_cons, Nat.max_le, List.forall_mem_cons]
    rw [ih]

theorem all_done {feeds : List Feed} {k : Nat} :
    ((feeds.map Feed.raw).map (Verif.doneBy (k + 1))).all (fun d => d) = true ↔ steadiest feeds ≤ k := by
  rw [steadiest_le]
  simp only [List.all_map, List.all_eq_true, Function.comp_apply, Feed.doneBy, decide_eq_true_eq]
  constructor
  · intro h a ha; exact Nat.lt_succ_iff.1 (h a ha)
  · intro h a ha; exact Nat.lt_succ_iff.2 (h a ha)

/-- How many values were given when it was asked `k` times. -/
def Feed.count (a : Feed) (k : Nat) : Nat := ((a.answers.take k).filterMap id).length

theorem Feed.count_succ (a : Feed) (k : Nat) :
    a.count (k + 1) = a.count k + if (answerAt a.answers k).isNone then 0 else 1 := by
  unfold Feed.count answerAt
  rw [List.take_add_one, List.filterMap_append, List.length_append]
  congr 1
  rcases a.answers[k]? with _ | _ | _ <;> rfl

theorem filterMap_take_take {α : Type} (l : List (Option α)) {k n : Nat} (h : k ≤ n) :
    ∃ r, (l.take n).filterMap id = (l.take k).filterMap id ++ r := by
  refine ⟨((l.take n).drop k).filterMap id, ?_⟩
  rw [← List.filterMap_append]
  congr 1
  have : l.take k = (l.take n).take k := by rw [List.take_take, Nat.min_eq_left h]
  rw [this, List.take_append_drop]

theorem Feed.count_le (a : Feed) {k n : Nat} (h : k ≤ n) : a.count k ≤ (a.given n).vals.length := by
  obtain ⟨r, hr⟩ := filterMap_take_take a.answers h
  show _ ≤ ((a.answers.take n).filterMap id).length
  rw [hr, List.length_append]
  exact Nat.le_add_right _ _

theorem Feed.given_count (a : Feed) {k n : Nat} (h : k < n) {v : a.ty.Val} (hv : answerAt a.answers k = some v) :
    (a.given n).vals[a.count k]? = some v := by
  obtain ⟨r, hr⟩ := filterMap_take_take a.answers (Nat.succ_le_of_lt h)
  have hg : (a.given n).vals = (a.answers.take n).filterMap id := rfl
  have e : (a.answers.take (k + 1)).filterMap id = (a.answers.take k).filterMap id ++ [v] := by
    rw [List.take_add_one, List.filterMap_append]
    congr 1
    unfold answerAt at hv
    rcases hx : a.answers[k]? with _ | _ | x <;> rw [hx] at hv
    · cases hv
    · cases hv
    · cases hv; rfl
  have hr' : (a.given n).vals = (a.answers.take k).filterMap id ++ (v :: r) := by
    rw [hg, hr, e, List.append_assoc]
    rfl
  have h3 : ((a.answers.take k).filterMap id ++ (v :: r))[a.count k]? = some v := by
    unfold Feed.count
    rw [List.getElem?_append_right (Nat.le_refl _), Nat.sub_self]
    rfl
  exact (congrArg (fun l : List a.ty.Val => l[a.count k]?) hr').trans h3

/-! ### A branch does not look further than the next answer -/

/-- The branch, with other answers to come. -/
def WBranch.asked (b : WBranch) (l : List (Option (Wr Nat))) : WBranch := { b with items := l }

theorem WBranch.createNewBasket_asked {b b' : WBranch} {tn : Str} {f : FileW} {bk : WBasket}
    (h : b.createNewBasket tn f = .ok (b', bk)) (l : List (Option (Wr Nat))) :
    (b.asked l).createNewBasket tn f = .ok (b'.asked l, bk) ∧ b'.items = b.items := by
  unfold WBranch.createNewBasket at h ⊢
  dsimp only [WBranch.asked] at h ⊢
  split at h
  · cases h
  · next hc =>
    rw [if_neg hc]
    cases h
    exact ⟨rfl, rfl⟩

theorem WBranch.currentBasket_asked {b b' : WBranch} {tn : Str} {f f' : FileW} {bk : WBasket}
    (h : b.currentBasket tn f = (.ok (b', bk), f')) (l : List (Option (Wr Nat))) :
    (b.asked l).currentBasket tn f = (.ok (b'.asked l, bk), f') ∧ b'.items = b.items := by
  unfold WBranch.currentBasket at h ⊢
  have hba : (b.asked l).basket = b.basket := rfl
  rw [hba]
  rcases hb : b.basket with _ | x <;> rw [hb] at h
  · obtain ⟨g, g1, h1, h2⟩ := Fs.ok_bind.1 h
    obtain ⟨⟨b2, bk2⟩, g2, h3', h4⟩ := Fs.ok_bind.1 h2
    obtain ⟨h3, hg⟩ := Fs.ok_lift.1 h3'
    subst hg
    obtain ⟨hx, hf⟩ := Fs.ok_pure.1 h4
    subst hf
    cases hx
    obtain ⟨c1, c2⟩ := WBranch.createNewBasket_asked h3 l
    refine ⟨?_, c2⟩
    dsimp only
    rw [Fs.bind_of_ok h1, Fs.bind_of_ok (show Fs.lift _ _ = (.ok _, _) from by rw [c1]; rfl)]
    rfl
  · obtain ⟨hx, rfl⟩ := Fs.ok_pure.1 h
    cases hx
    exact ⟨rfl, rfl⟩

theorem WBranch.flush_asked {b b' : WBranch} {f f' : FileW} (h : b.flush f = (.ok b', f'))
    (l : List (Option (Wr Nat))) : (b.asked l).flush f = (.ok (b'.asked l), f') ∧ b'.items = b.items := by
  unfold WBranch.flush at h ⊢
  obtain ⟨bk, g1, h1, h⟩ := Fs.ok_bind.1 h
  obtain ⟨⟨bk', tot, zip⟩, g2, h2, h⟩ := Fs.ok_bind.1 h
  obtain ⟨hx, rfl⟩ := Fs.ok_pure.1 h
  cases hx
  refine ⟨?_, rfl⟩
  rw [Fs.bind_of_ok (show Fs.orPanic (b.asked l).basket f = _ from h1), Fs.bind_of_ok h2]
  rfl

theorem WBranch.spill_asked {b b' : WBranch} {bk : WBasket} {n : Int} {tn : Str} {f f' : FileW}
    (h : b.spill bk n tn f = (.ok b', f')) (l : List (Option (Wr Nat))) :
    (b.asked l).spill bk n tn f = (.ok (b'.asked l), f') ∧ b'.items = b.items := by
  unfold WBranch.spill at h ⊢
  show (if n < 0 then Fs.panic
    else if b.branch.data.basketSize ≤ (bk.wbuf.p.length : Int) + n then _ else pure (b.asked l)) f = _ ∧ _
  split at h
  · simp [Fs.ok_panic] at h
  · next hn =>
    rw [if_neg hn]
    split at h
    · next hc =>
      rw [if_pos hc]
      obtain ⟨b1, g1, h1, h⟩ := Fs.ok_bind.1 h
      obtain ⟨g, g2, h2, h⟩ := Fs.ok_bind.1 h
      obtain ⟨⟨b2, bk2⟩, g3, h3', h⟩ := Fs.ok_bind.1 h
      obtain ⟨h3, hg3⟩ := Fs.ok_lift.1 h3'
      subst hg3
      obtain ⟨hx, hf⟩ := Fs.ok_pure.1 h
      subst hf
      cases hx
      obtain ⟨c1, c2⟩ := WBranch.flush_asked h1 l
      obtain ⟨d1, d2⟩ := WBranch.createNewBasket_asked h3 l
      refine ⟨?_, d2.trans c2⟩
      rw [Fs.bind_of_ok c1, Fs.bind_of_ok h2, Fs.bind_of_ok (show Fs.lift _ _ = (.ok _, _) from by rw [d1]; rfl)]
      rfl
    · next hc =>
      rw [if_neg hc]
      obtain ⟨hx, rfl⟩ := Fs.ok_pure.1 h
      cases hx
      exact ⟨rfl, rfl⟩

theorem WBranch.fill_asked {b b' : WBranch} {bk bk' : WBasket} {item : Wr Nat} {rest : List (Option (Wr Nat))}
    {n : Int} (h : b.fill bk item rest = .ok (b', bk', n)) (l l' : List (Option (Wr Nat))) :
    (b.asked l').fill bk item l = .ok (b'.asked l, bk', n) ∧ b'.items = rest := by
  unfold WBranch.fill at h ⊢
  show (match b.branch.data.leaves with
    | [leaf] => _
    | _ => _) = _ ∧ _
  split at h
  · next leaf hl =>
    rw [hl]
    dsimp only at h ⊢
    obtain ⟨bk1, h1, h⟩ := Res.ok_bind.1 h
    obtain ⟨⟨leaf', wbuf⟩, h2, h⟩ := Res.ok_bind.1 h
    cases h
    rw [Res.bind_ok h1, Res.bind_ok h2]
    exact ⟨rfl, rfl⟩
  · cases h

/-- With the same next answer, the branch does the same. -/
theorem WBranch.write_asked {b b' : WBranch} {tn : Str} {f f' : FileW} {m : Option Int} {item : Wr Nat}
    {rest : List (Option (Wr Nat))} (hit : b.items = some item :: rest) (h : b.write tn f = (.ok (b', m), f'))
    (l : List (Option (Wr Nat))) :
    (b.asked (some item :: l)).write tn f = (.ok (b'.asked l, m), f') ∧ b'.items = rest := by
  unfold WBranch.write at h ⊢
  obtain ⟨⟨b1, bk⟩, g1, h1, h⟩ := Fs.ok_bind.1 h
  obtain ⟨c1, c2⟩ := WBranch.currentBasket_asked h1 (some item :: l)
  rw [Fs.bind_of_ok c1]
  dsimp only at h
  rw [c2, hit] at h
  dsimp only at h
  show (do
    let (b, bk, n) ← Fs.lift ((b1.asked (some item :: l)).fill bk item l)
    let b ← b.spill bk n tn
    pure (b, some n)) g1 = _ ∧ _
  obtain ⟨⟨b2, bk2, n⟩, g2, h2', h⟩ := Fs.ok_bind.1 h
  obtain ⟨h2, hg2⟩ := Fs.ok_lift.1 h2'
  subst hg2
  obtain ⟨b3, g3, h3, h⟩ := Fs.ok_bind.1 h
  obtain ⟨hx, hf⟩ := Fs.ok_pure.1 h
  subst hf
  cases hx
  obtain ⟨d1, d2⟩ := WBranch.fill_asked h2 l (some item :: l)
  obtain ⟨e1, e2⟩ := WBranch.spill_asked h3 l
  refine ⟨?_, e2.trans d2⟩
  rw [Fs.bind_of_ok (show Fs.lift _ _ = (.ok _, _) from by rw [d1]; rfl)]
  dsimp only
  rw [Fs.bind_of_ok e1]
  rfl

/-- With nothing to write. -/
theorem WBranch.write_pause {b b' : WBranch} {tn : Str} {f f' : FileW} {m : Option Int}
    (hit : b.items.head?.join = none) (h0 : b.write tn f = (.ok (b', m), f')) :
    m = none ∧ f' = f ∧ b'.items = b.items.tail ∧ ∃ b1 bk, b.currentBasket tn f = (.ok (b1, bk), f) ∧
      b' = b1.asked b.items.tail := by
  unfold WBranch.write at h0
  obtain ⟨⟨b1, bk⟩, g1, h1, h⟩ := Fs.ok_bind.1 h0
  clear h0
  obtain ⟨-, c2⟩ := WBranch.currentBasket_asked h1 []
  have hf : g1 = f := by
    unfold WBranch.currentBasket at h1
    rcases hb : b.basket with _ | x <;> rw [hb] at h1
    · obtain ⟨g, g2, h2, h3⟩ := Fs.ok_bind.1 h1
      obtain ⟨⟨b2, bk2⟩, g3, h4, h5⟩ := Fs.ok_bind.1 h3
      obtain ⟨h4, rfl⟩ := Fs.ok_lift.1 h4
      obtain ⟨-, rfl⟩ := Fs.ok_pure.1 h5
      cases h2
      rfl
    · exact (Fs.ok_pure.1 h1).2.symm
  subst hf
  dsimp only at h
  rw [c2] at h
  rcases hi : b.items with _ | ⟨_ | x, rest⟩ <;> rw [hi] at h hit
  · obtain ⟨hx, rfl⟩ := Fs.ok_pure.1 h
    cases hx
    have : b' = b'.asked [] := by
      rw [hi] at c2
      cases b'
      cases c2
      rfl
    exact ⟨rfl, rfl, c2.trans hi, _, _, h1, this⟩
  · obtain ⟨hx, rfl⟩ := Fs.ok_pure.1 h
    cases hx
    exact ⟨rfl, rfl, rfl, _, _, h1, rfl⟩
  · cases hit

/-! ### Rounds -/

/-- The branch with the values of the column from the `m`-th on to come. -/
def WBranch.fed (b : WBranch) (c : Column) (m : Nat) : WBranch :=
  b.asked ((c.vals.drop m).map fun v => some (c.ty.marshal v))

/-- After `k` rounds of `n`. -/
def FeedAt (env : Env) (tn path : Str) (f : FileW) (n k : Nat) (a : Feed) (b : WBranch) : Prop :=
  (∃ b0 l0 done cur, Made (a.given n) b0 l0 ∧
    ColumnState env tn (a.given n) (a.count k) (b.fed (a.given n) (a.count k)) f path b0 l0 done cur) ∧
  b.items = (a.answers.drop k).map (Option.map a.ty.marshal)

theorem FeedAt.mono {env : Env} {tn path : Str} {f f' : FileW} {n k : Nat} {a : Feed} {b : WBranch}
    (h : FeedAt env tn path f n k a b) (hi : Inv path f') (ht : ∀ w ∈ f.trace, w ∈ f'.trace) :
    FeedAt env tn path f' n k a b := by
  obtain ⟨⟨b0, l0, done, cur, hm, h⟩, hit⟩ := h
  exact ⟨⟨b0, l0, done, cur, hm, h.mono hi ht⟩, hit⟩

/-- The bytes of the `k`-th answer. -/
def Feed.bytesAt (a : Feed) (k : Nat) : Nat :=
  match answerAt a.answers k with
  | none => 0
  | some v => (entryBytes a.ty v).length

theorem FeedAt.write {env : Env} {tn path : Str} {f f' : FileW} {n k : Nat} {a : Feed} {b b' : WBranch}
    {m : Option Int} (hok : ∀ v ∈ (a.given n).vals, a.ty.Ok v) (h : FeedAt env tn path f n k a b) (hk : k < n)
    (hw : b.write tn f = (.ok (b', m), f')) (hs : f'.Small) :
    Stores f f' ∧ m.getD 0 = a.bytesAt k ∧ (Inv path f' → FeedAt env tn path f' n (k + 1) a b') := by
  obtain ⟨⟨b0, l0, done, cur, hm, hst⟩, hit⟩ := h
  have hcount := a.count_succ k
  have hdrop : a.answers.drop (k + 1) = (a.answers.drop k).tail := by rw [List.tail_drop]
  have hhead : b.items.head?.join = (answerAt a.answers k).map a.ty.marshal := by
    rw [hit, List.head?_map, List.head?_drop]
    unfold answerAt
    rcases a.answers[k]? with _ | _ | _ <;> rfl
  rcases ha : answerAt a.answers k with _ | v
  · rw [ha] at hhead hcount
    obtain ⟨rfl, rfl, hit', b1, bk, hcb, rfl⟩ := WBranch.write_pause hhead hw
    refine ⟨.inl rfl, by unfold Feed.bytesAt; rw [ha]; rfl, fun _ => ⟨⟨b0, l0, done, cur, hm, ?_⟩, ?_⟩⟩
    · have hc : a.count (k + 1) = a.count k := by simpa using hcount
      rw [hc]
      obtain ⟨h1, h2⟩ := WBranch.currentBasket_asked hcb
        (((a.given n).vals.drop (a.count k)).map fun v => some ((a.given n).ty.marshal v))
      obtain ⟨-, -, -, hf, -⟩ := hst.filling.currentBasket hst.fresh h1
      exact ⟨hst.fresh, hst.name, hst.entry, ⟨hf.inv, hf.tables, hf.basket, hf.small⟩, hst.le, rfl, hst.taken, hst.cut⟩
    · rw [hit', hit, hdrop, List.map_tail]
  · rw [ha] at hcount
    have hc : a.count (k + 1) = a.count k + 1 := by simpa using hcount
    have hv := a.given_count hk ha
    obtain ⟨hlt, hv'⟩ := List.getElem?_eq_some_iff.1 hv
    have hitems : b.items = some (a.ty.marshal v) :: b.items.tail := by
      rw [ha] at hhead
      rcases hx : b.items with _ | ⟨_ | x, rest⟩ <;> rw [hx] at hhead
      · cases hhead
      · cases hhead
      · cases hhead; rfl
    obtain ⟨h1, h2⟩ := WBranch.write_asked hitems hw
      (((a.given n).vals.drop (a.count k + 1)).map fun v => some ((a.given n).ty.marshal v))
    have e : b.fed (a.given n) (a.count k) = b.asked (some (a.ty.marshal v) ::
        (((a.given n).vals.drop (a.count k + 1)).map fun v => some ((a.given n).ty.marshal v))) := by
      unfold WBranch.fed
      rw [List.drop_eq_getElem_cons hlt, hv']
      rfl
    rw [← e] at h1
    obtain ⟨hstores, hcase⟩ := hst.write hok h1 hs
    rcases hcase with ⟨-, hn, -⟩ | ⟨v', -, hv2, rfl, dn', cur', hst', -⟩
    · omega
    · rw [hv] at hv2
      cases hv2
      refine ⟨hstores, ?_, fun hi => ⟨⟨b0, l0, dn', cur', hm, ?_⟩, ?_⟩⟩
      · have hmem : v ∈ (a.given n).vals.take (a.count k + 1) := by
          rw [List.take_add_one]
          exact List.mem_append_right _ (Option.mem_toList.2 hv)
        have hle := hst'.entry_le hmem
        unfold Feed.bytesAt
        rw [ha]
        show asI 4 _ = _
        exact asI4_nat (by simp only [kStartBigFile]; exact Int.ofNat_le.2 hle)
      · rw [hc]
        have e2 : b'.fed (a.given n) (a.count k + 1) =
            b'.asked (((a.given n).vals.drop (a.count k + 1)).map fun v => some ((a.given n).ty.marshal v)) := rfl
        rw [e2]
        exact hst'
      · rw [h2, hit, hdrop, List.map_tail]

/-- The bytes of the `k`-th answers. -/
def feedBytes (k : Nat) (feeds : List Feed) : Nat := (feeds.map fun a => a.bytesAt k).sum

/-- One round. -/
theorem writeRound_feeds {env : Env} {tn path : Str} {cb n k : Nat} {feeds : List Feed}
    (hok : ∀ a ∈ feeds, ∀ v ∈ (a.given n).vals, a.ty.Ok v) (hk : k < n) {bs bs' : List WBranch}
    {tot tot' : Int} {done : List Bool} {log : List (Nat × Event)} {f f' : FileW} (hi : Inv path f)
    (hb : All2 (FeedAt env tn path f n k) feeds bs)
    (h : writeRound tn cb bs tot f = (.ok (bs', done, tot', log), f')) (hs : f'.Small) :
    Inv path f' ∧ (∃ ops, Runs env f ops f' ∧ OnlyBaskets ops) ∧
      All2 (FeedAt env tn path f' n (k + 1)) feeds bs' ∧ (InI 4 tot → InI 4 tot') ∧
      tot' = tot + feedBytes k feeds := by
  induction feeds generalizing bs bs' tot tot' done log f f' with
  | nil =>
    cases hb.nil_left
    unfold writeRound at h
    obtain ⟨hx, rfl⟩ := Fs.ok_pure.1 h
    cases hx
    exact ⟨hi, ⟨[], .nil, fun op h => by cases h⟩, trivial, id, (Int.add_zero _).symm⟩
  | cons a feeds ih =>
    obtain ⟨b, bs, rfl, h1, h2⟩ := hb.cons_left
    unfold writeRound at h
    obtain ⟨⟨b1, m⟩, f1, hw, ha1⟩ := Fs.ok_bind.1 h
    obtain ⟨tot1, f2, ha, hb1⟩ := Fs.ok_bind.1 ha1
    obtain ⟨⟨bs1, done1, tot2, log1⟩, f3, hr, hc1⟩ := Fs.ok_bind.1 hb1
    obtain ⟨hf2, ht1, hadd⟩ := addBytes_ok ha
    subst hf2
    obtain ⟨hx, hf3⟩ := Fs.ok_pure.1 hc1
    subst hf3
    cases hx
    have hs1 : f2.Small := fun w hw => hs w ((Fs.Grows.writeRound _ _ _ _).mem hr hw)
    obtain ⟨hstores, hm, hst⟩ := h1.write (hok a (List.mem_cons_self ..)) hk hw hs1
    obtain ⟨ops1, hr1, hb1⟩ := hstores.runs (env := env)
    have hi1 := runs_inv hi hr1
    have htr1 := hr1.trace hi
    obtain ⟨hi3, ⟨ops2, hr2, hb2⟩, hall, htot, hsum⟩ := ih (fun a ha => hok a (List.mem_cons_of_mem _ ha)) hi1
      (h2.imp fun a b hab => hab.mono hi1 htr1) hr hs
    refine ⟨hi3, ⟨ops1 ++ ops2, runs_trans hr1 hr2, hb1.append hb2⟩, ⟨(hst hi1).mono hi3 (hr2.trace hi1), hall⟩,
      fun ht => htot (ht1 ht), ?_⟩
    have e : feedBytes k (a :: feeds) = a.bytesAt k + feedBytes k feeds := rfl
    rw [hsum, hadd, hm, e]
    push_cast
    omega

/-- The bytes of the answers from the `k`-th to the one before the `n`-th. -/
def feedBytesFrom (n k : Nat) (feeds : List Feed) : Nat :=
  (feeds.map fun a => ((((a.answers.take n).drop k).filterMap id).map fun v => (entryBytes a.ty v).length).sum).sum

theorem feedBytesFrom_step {n k : Nat} (hk : k < n) (feeds : List Feed) :
    feedBytesFrom n k feeds = feedBytes k feeds + feedBytesFrom n (k + 1) feeds := by
  unfold feedBytesFrom feedBytes
  induction feeds with
  | nil => rfl
  | cons a feeds ih =>
    simp only [List.map_cons, List.sum_cons]
    rw [ih]
    have : ((((a.answers.take n).drop k).filterMap id).map fun v => (entryBytes a.ty v).length).sum =
        a.bytesAt k + ((((a.answers.take n).drop (k + 1)).filterMap id).map fun v => (entryBytes a.ty v).length).sum := by
      have hg : (a.answers.take n)[k]? = a.answers[k]? := List.getElem?_take_of_lt hk
      unfold Feed.bytesAt answerAt
      rw [← hg]
      rcases hx : (a.answers.take n)[k]? with _ | x
      · have hl := List.getElem?_eq_none_iff.1 hx
        rw [List.drop_eq_nil_of_le hl, List.drop_eq_nil_of_le (Nat.le_succ_of_le hl)]
        rfl
      · obtain ⟨hlt, hx⟩ := List.getElem?_eq_some_iff.1 hx
        rw [List.drop_eq_getElem_cons hlt, hx]
        cases x with
        | none => simp
        | some v => simp
    omega

theorem feedBytesFrom_end (n : Nat) (feeds : List Feed) : feedBytesFrom n n feeds = 0 := by
  unfold feedBytesFrom
  induction feeds with
  | nil => rfl
  | cons a feeds ih =>
    simp only [List.map_cons, List.sum_cons]
    rw [ih, List.drop_eq_nil_of_le (by rw [List.length_take]; exact Nat.min_le_left _ _)]
    rfl

/-- The rounds up to the end. -/
theorem writeRounds_feeds {env : Env} {path : Str} {feeds : List Feed}
    (hok : ∀ a ∈ feeds, ∀ v ∈ (a.given (steadiest feeds + 1)).vals, a.ty.Ok v) :
    ∀ {fuel k : Nat} {t t' : WTree} {f f' : FileW}, Inv path f →
    All2 (FedA k) (feeds.map Feed.raw) t.branches →
    All2 (FeedAt env t.data.named.name path f (steadiest feeds + 1) k) feeds t.branches →
    k ≤ steadiest feeds → writeRounds fuel ((feeds.map Feed.raw).map (doneBy k)) t f = (.ok t', f') → f'.Small →
    Inv path f' ∧ (∃ ops, Runs env f ops f' ∧ OnlyBaskets ops) ∧
      All2 (FeedAt env t.data.named.name path f' (steadiest feeds + 1) (steadiest feeds + 1)) feeds t'.branches ∧
      t'.sinfos = t.sinfos ∧
      (∃ tot : Int, (tot.natAbs ≤ (steadiest feeds + 1 - k) * 2 ^ 31 ∧ tot = feedBytesFrom (steadiest feeds + 1) k feeds) ∧
        t'.data = { t.data with totBytes := t.data.totBytes + tot
                                entries := t.data.entries + (steadiest feeds - k : Nat) })
  | 0, k, t, t', f, f', _, _, _, _, h, _ => by
    unfold writeRounds at h
    simp [Fs.ok_panic] at h
  | fuel + 1, k, t, t', f, f', hi, hfed, hst, hk, h, hs => by
    unfold writeRounds at h
    obtain ⟨⟨bs, done, tot, log⟩, f1, h0, h⟩ := Fs.ok_bind.1 h
    obtain ⟨r1, r2⟩ := writeRound_fedA hfed h0
    have hall := all_done (feeds := feeds) (k := k)
    simp only [r2, zip_doneBy] at h
    have hs1 : f1.Small := by
      split at h
      · obtain ⟨-, rfl⟩ := Fs.ok_pure.1 h
        exact hs
      · exact fun w hw => hs w ((Fs.Grows.writeRounds _ _ _).mem h hw)
    obtain ⟨hi1, ⟨ops1, hr1, hb1⟩, hst1, htot, hsum⟩ := writeRound_feeds hok (Nat.lt_succ_of_le hk) hi hst h0 hs1
    rw [Int.zero_add] at hsum
    have htot := htot (by decide)
    have habs : tot.natAbs ≤ 2 ^ 31 := by
      have h1 := htot.1
      have h2 := htot.2
      rw [show ((256 ^ 4 : Nat) : Int) = 4294967296 from rfl] at h1 h2
      omega
    split at h
    · next hd =>
      obtain ⟨hx, rfl⟩ := Fs.ok_pure.1 h
      cases hx
      have hk' : steadiest feeds = k := Nat.le_antisymm (hall.1 hd) hk
      refine ⟨hi1, ⟨ops1, hr1, hb1⟩, by rw [hk'] at hst1 ⊢; exact hst1, rfl, tot, ⟨?_, ?_⟩, ?_⟩
      · rw [hk', show k + 1 - k = 1 by omega]
        omega
      · rw [feedBytesFrom_step (Nat.lt_succ_of_le hk), hk', feedBytesFrom_end (k + 1), hsum]
        rfl
      · rw [hk', Nat.sub_self]
        show _ = ({ t.data with totBytes := _, entries := t.data.entries + 0 } : TreeData)
        rw [Int.add_zero]
    · next hd =>
      have hk' : k < steadiest feeds := Nat.lt_of_not_le fun hle => hd (hall.2 hle)
      obtain ⟨hi2, ⟨ops2, hr2, hb2⟩, e1, e2, tot2, ⟨e3, e5⟩, e4⟩ := writeRounds_feeds (k := k + 1)
        (t := { t with branches := bs
                       data := { t.data with totBytes := t.data.totBytes + tot
                                             entries := t.data.entries + 1 }
                       log := t.log ++ calls t.callbacks .before ++ log })
        hok hi1 r1 hst1 hk' h hs
      refine ⟨hi2, ⟨ops1 ++ ops2, runs_trans hr1 hr2, hb1.append hb2⟩, e1, e2, tot + tot2, ⟨?_, ?_⟩, ?_⟩
      · have : steadiest feeds + 1 - k = (steadiest feeds + 1 - (k + 1)) + 1 := by omega
        rw [this, Nat.add_mul, Nat.one_mul]
        omega
      · rw [e5, hsum, feedBytesFrom_step (Nat.lt_succ_of_le hk)]
        push_cast
        rfl
      · rw [e4]
        have e6 : t.data.totBytes + (tot + tot2) = t.data.totBytes + tot + tot2 := (Int.add_assoc ..).symm
        have e7 : t.data.entries + ((steadiest feeds - k : Nat) : Int) =
            t.data.entries + 1 + ((steadiest feeds - (k + 1) : Nat) : Int) := by omega
        rw [e6, e7]

/-- The last flush of every branch. -/
theorem flushAll_feeds {env : Env} {tn path : Str} {n : Nat} : ∀ {feeds : List Feed} {bs bs' : List WBranch}
    {f f' : FileW}, Inv path f → All2 (FeedAt env tn path f n n) feeds bs → flushAll bs f = (.ok bs', f') → f'.Small →
    Inv path f' ∧ (∃ ops, Runs env f ops f' ∧ OnlyBaskets ops) ∧ All2 (DoneAt tn path f') (feeds.map (Feed.given n)) bs'
  | [], bs, bs', f, f', hi, hb, h, _ => by
    cases hb.nil_left
    unfold flushAll at h
    obtain ⟨hx, rfl⟩ := Fs.ok_pure.1 h
    cases hx
    exact ⟨hi, ⟨[], .nil, fun op h => by cases h⟩, trivial⟩
  | a :: feeds, bs, bs', f, f', hi, hb, h, hs => by
    obtain ⟨b, bs, rfl, h1, h2⟩ := hb.cons_left
    unfold flushAll at h
    obtain ⟨b1, f1, hw, h⟩ := Fs.ok_bind.1 h
    obtain ⟨bs1, f2, hr, h⟩ := Fs.ok_bind.1 h
    obtain ⟨hx, hf⟩ := Fs.ok_pure.1 h
    subst hf
    cases hx
    have hs1 : f1.Small := fun w hw => hs w ((Fs.Grows.flushAll _).mem hr hw)
    obtain ⟨⟨b0, l0, dn, cur, hm, hst⟩, -⟩ := h1
    have hc : a.count n = (a.given n).vals.length := rfl
    rw [hc] at hst
    obtain ⟨hw', -⟩ := WBranch.flush_asked hw
      (((a.given n).vals.drop (a.given n).vals.length).map fun v => some ((a.given n).ty.marshal v))
    obtain ⟨hi1, htr1, hstores, d, ht, -, -, htk⟩ := hst.flush hw' hs1
    obtain ⟨ops1, hr1, hb1⟩ := hstores.runs (env := env)
    obtain ⟨hi2, ⟨ops2, hr2, hb2⟩, hall⟩ := flushAll_feeds hi1 (h2.imp fun a b hab => hab.mono hi1 htr1) hr hs
    rw [List.take_length] at htk
    refine ⟨hi2, ⟨ops1 ++ ops2, runs_trans hr1 hr2, hb1.append hb2⟩, ⟨b0, l0, dn ++ [d], hm, ?_⟩, hall⟩
    have htr2 := hr2.trace hi1
    exact ⟨hst.fresh, hst.name, hi2, ht.mono htr2, htk, by simp⟩

/-! ### Making the tree -/

/-- What is made of a branch does not depend on what will be written to it. -/
theorem WBranch.new_asked {ty : Ty} {name : Str} {items : List (Option (Wr Nat))} {io : Nat} {b : WBranch}
    {sis : List StreamerInfo} (h : WBranch.new ty name items io = .ok (b, sis)) (l : List (Option (Wr Nat))) :
    WBranch.new ty name l io = .ok (b.asked l, sis) ∧ b.items = items := by
  unfold WBranch.new at h ⊢
  obtain ⟨leaf, h0, h⟩ := Res.ok_bind.1 h
  rw [Res.bind_ok h0]
  dsimp only at h ⊢
  split at h
  · obtain ⟨c, h1, h⟩ := Res.ok_bind.1 h
    obtain ⟨si, h2, h⟩ := Res.ok_bind.1 h
    rw [Res.bind_ok h1, Res.bind_ok h2]
    cases h
    exact ⟨rfl, rfl⟩
  · cases h
    exact ⟨rfl, rfl⟩
  · cases h
    exact ⟨rfl, rfl⟩

theorem FeedAt.start {env : Env} {tn path : Str} {f : FileW} (hi : Inv path f) (n : Nat) {a : Feed} {b : WBranch}
    {sis : List StreamerInfo}
    (h : WBranch.new a.ty a.name (a.answers.map (Option.map a.ty.marshal)) 0 = .ok (b, sis)) :
    FeedAt env tn path f n 0 a b := by
  obtain ⟨h1, h2⟩ := WBranch.new_asked h ((a.given n).vals.map fun v => some (a.ty.marshal v))
  obtain ⟨b0, l0, done, cur, hm, hst⟩ := AtRound.start (env := env) (tn := tn) hi (c := a.given n) h1
  rw [Nat.zero_min] at hst
  exact ⟨⟨b0, l0, done, cur, hm, hst⟩, h2⟩

theorem buildFeeds_state {env : Env} {tn path : Str} {f : FileW} (hi : Inv path f) (n : Nat) {feeds done : List Feed}
    {t t' : WTree} (hio : t.data.iobits = 0) (ht : All2 (FeedAt env tn path f n 0) done t.branches)
    (hs : ∃ sis, t.sinfos = some sis ∧ VectorInfos (done.map (Feed.given n)) sis ∧
      VectorsListed (done.map (Feed.given n)) sis)
    (h : feeds.foldlM (fun t a => t.newBranch a.ty a.name a.answers) t = .ok t') :
    All2 (FeedAt env tn path f n 0) (done ++ feeds) t'.branches ∧
      (∃ sis, t'.sinfos = some sis ∧ VectorInfos ((done ++ feeds).map (Feed.given n)) sis ∧
        VectorsListed ((done ++ feeds).map (Feed.given n)) sis) ∧ t'.data = t.data := by
  induction feeds generalizing done t with
  | nil =>
    cases h
    rw [List.append_nil]
    exact ⟨ht, hs, rfl⟩
  | cons a feeds ih =>
    rw [List.foldlM_cons] at h
    obtain ⟨t1, h0, h⟩ := Res.ok_bind.1 h
    obtain ⟨b, sis, h1, h2, h3⟩ := WTree.pushBranch_ok h0
    obtain ⟨sis0, hs0, hv, hl⟩ := hs
    rw [hio] at h1
    obtain ⟨h1', -⟩ := WBranch.new_asked h1 ((a.given n).vals.map fun v => some (a.ty.marshal v))
    obtain ⟨l, -, hsi⟩ := Made.of_new (c := a.given n) h1'
    have hd : t1.data = t.data := by rw [h2]
    have := ih (done := done ++ [a]) (t := t1) (by rw [hd]; exact hio)
      (by rw [h2]; exact ht.snoc (.start hi n h1)) ⟨sis0 ++ sis, ?_, ?_, ?_⟩ h
    · rw [List.append_assoc] at this
      exact ⟨this.1, this.2.1, this.2.2.trans hd⟩
    · rw [h3 (by rw [hs0]; rfl), hs0]; rfl
    · intro si hmem
      rw [List.map_append]
      rcases List.mem_append.1 hmem with hmem | hmem
      · obtain ⟨c', hc', r⟩ := hv si hmem
        exact ⟨c', List.mem_append_left _ hc', r⟩
      · obtain ⟨e, he, hm⟩ := hsi si hmem
        exact ⟨a.given n, by simp, e, he, hm⟩
    · intro c' hc' e he
      rw [List.map_append] at hc'
      rcases List.mem_append.1 hc' with hc' | hc'
      · obtain ⟨si, hsi, r⟩ := hl c' hc' e he
        exact ⟨si, List.mem_append_left _ hsi, r⟩
      · rw [List.mem_singleton.1 hc'] at he
        obtain ⟨si, hsi, r⟩ := new_listed (c := a.given n) h1' he
        exact ⟨si, List.mem_append_right _ hsi, r⟩

theorem buildFeeds_fedA {feeds : List Feed} {done : List Feed} {t t' : WTree}
    (ht : All2 (FedA 0) (done.map Feed.raw) t.branches)
    (h : feeds.foldlM (fun t a => t.newBranch a.ty a.name a.answers) t = .ok t') :
    All2 (FedA 0) ((done ++ feeds).map Feed.raw) t'.branches := by
  induction feeds generalizing done t with
  | nil =>
    cases h
    rw [List.append_nil]
    exact ht
  | cons a feeds ih =>
    rw [List.foldlM_cons] at h
    obtain ⟨t1, h0, h⟩ := Res.ok_bind.1 h
    obtain ⟨b, sis, h1, h2, h3⟩ := WTree.pushBranch_ok h0
    have := ih (done := done ++ [a]) (t := t1) (by
      rw [h2, List.map_append]
      exact ht.snoc (WBranch.new_fedA h1)) h
    rwa [List.append_assoc] at this

/-! ### How many values are stored -/

theorem given_le {α : Type} (l : List (Option α)) : ∀ {n : Nat}, (l.takeWhile Option.isSome).length ≤ n →
    ((l.take (n + 1)).filterMap id).length ≤ n := by
  induction l with
  | nil => intro n _; simp
  | cons x l ih =>
    intro n h
    cases x with
    | none =>
      have h1 := List.length_filterMap_le id (l.take n)
      have h2 := List.length_take_le n l
      simp only [List.take_succ_cons, List.filterMap_cons, id]
      omega
    | some x =>
      cases n with
      | zero => simp at h
      | succ n =>
        have := ih (n := n) (by simpa using h)
        simp only [List.take_succ_cons, List.filterMap_cons, id, List.length_cons]
        omega

theorem le_given {α : Type} (l : List (Option α)) : ∀ {n : Nat}, (l.takeWhile Option.isSome).length ≤ n →
    (l.takeWhile Option.isSome).length ≤ ((l.take n).filterMap id).length := by
  induction l with
  | nil => intro n _; simp
  | cons x l ih =>
    intro n h
    cases x with
    | none => simp
    | some x =>
      cases n with
      | zero => simp at h
      | succ n =>
        have := ih (n := n) (by simpa using h)
        simp only [List.take_succ_cons, List.filterMap_cons, id, List.length_cons, List.takeWhile_cons,
          Option.isSome_some, if_true]
        omega

theorem exists_steadiest (feeds : List Feed) : steadiest feeds = 0 ∨ ∃ a ∈ feeds, a.steady = steadiest feeds := by
  unfold steadiest
  induction feeds with
  | nil => exact .inl rfl
  | cons a feeds ih =>
    simp only [List.map_cons, List.foldr_cons]
    by_cases h : (feeds.map Feed.steady).foldr max 0 ≤ a.steady
    · exact .inr ⟨a, List.mem_cons_self .., (Nat.max_eq_left h).symm⟩
    · rw [Nat.max_eq_right (by omega)]
      rcases ih with h' | ⟨b, hb, e⟩
      · omega
      · exact .inr ⟨b, List.mem_cons_of_mem _ hb, e⟩

/-- The longest of the columns that are stored has as many values as there are rounds. -/
theorem longest_stored (feeds : List Feed) : longest (storedColumns feeds) = steadiest feeds := by
  apply Nat.le_antisymm
  · refine longest_le.2 fun c hc => ?_
    obtain ⟨a, ha, rfl⟩ := List.mem_map.1 hc
    exact given_le a.answers (steadiest_le.1 (Nat.le_refl _) a ha)
  · rcases exists_steadiest feeds with h | ⟨a, ha, h⟩
    · omega
    · have h1 : (a.given (steadiest feeds + 1)).vals.length ≤ longest (storedColumns feeds) :=
        longest_le.1 (Nat.le_refl _) _ (List.mem_map_of_mem ha)
      have h2 := le_given a.answers (n := steadiest feeds + 1) (by
        have := h
        unfold Feed.steady at this
        omega)
      have h3 : (a.given (steadiest feeds + 1)).vals.length =
        ((a.answers.take (steadiest feeds + 1)).filterMap id).length := rfl
      unfold Feed.steady at h
      omega

theorem feed_steady (c : Column) : c.feed.steady = c.vals.length := by
  unfold Feed.steady Column.feed
  dsimp only
  induction c.vals with
  | nil => rfl
  | cons v vs ih => simpa using ih

theorem steadiest_feed (cols : List Column) : steadiest (cols.map Column.feed) = longest cols := by
  unfold steadiest longest
  rw [List.map_map]
  congr 1
  exact List.map_congr_left fun c _ => feed_steady c

/-- Iterators that do not pause give their columns. -/
theorem stored_feed (cols : List Column) : storedColumns (cols.map Column.feed) = cols := by
  unfold storedColumns
  rw [steadiest_feed, List.map_map]
  conv => rhs; rw [← List.map_id cols]
  refine List.map_congr_left fun c hc => ?_
  have h := longest_le.1 (Nat.le_refl (longest cols)) c hc
  show (⟨c.ty, c.name, _⟩ : Column) = c
  have e : ((c.vals.map some).take (longest cols + 1)).filterMap id = c.vals := by
    rw [List.take_of_length_le (by rw [List.length_map]; omega), List.filterMap_map]
    exact List.filterMap_some
  cases c
  exact congrArg _ e

theorem build_feed (tn : Str) (cb : Nat) (cols : List Column) :
    buildFeeds tn cb (cols.map Column.feed) = buildTree tn cb cols := by
  unfold buildFeeds buildTree
  rw [List.foldlM_map]
  rfl

/-- What writing a tree does, whatever the iterators. -/
theorem TreeStored.of_feeds {env : Env} {path tn : Str} {places : Places} {cb : Nat} {feeds : List Feed}
    {t0 t : WTree} {f1 f2 : FileW} (hi : Inv path f1) (hok : ∀ c ∈ storedColumns feeds, ∀ v ∈ c.vals, c.ty.Ok v)
    (hb : buildFeeds tn cb feeds = .ok t0) (h : t0.write env places f1 = (.ok t, f2)) (hs : f2.Below2GB) :
    ∃ t' ops g g' sis, TreeStored env path tn places (storedColumns feeds) f1 f2 t' ops g g' sis := by
  obtain ⟨hst, ⟨sis, hsis, hv, hl⟩, hdata0⟩ := buildFeeds_state (env := env) (tn := tn) hi (steadiest feeds + 1)
    (done := []) (feeds := feeds) (t := { WTree.new tn with callbacks := cb }) rfl (by trivial)
    ⟨[], rfl, (fun si h => by cases h), fun c h => by cases h⟩ hb
  have hfed := buildFeeds_fedA (done := []) (feeds := feeds) (t := { WTree.new tn with callbacks := cb })
    (by trivial) hb
  rw [List.nil_append] at hst hfed hv hl
  have hdata0 : t0.data = (WTree.new tn).data := hdata0
  have hname : t0.data.named.name = tn := by rw [hdata0]; rfl
  unfold WTree.write at h
  obtain ⟨t1, g1, hr, h⟩ := Fs.ok_bind.1 h
  unfold WTree.close at h
  obtain ⟨bs, g2, hfl, h⟩ := Fs.ok_bind.1 h
  dsimp only at h
  obtain ⟨u, g3, hput, h⟩ := Fs.ok_bind.1 h
  obtain ⟨sis', g4, hsi, h⟩ := Fs.ok_bind.1 h
  obtain ⟨hsi', hg4⟩ := Fs.ok_orPanic.1 hsi
  subst hg4
  obtain ⟨u', g5, hreg, h⟩ := Fs.ok_bind.1 h
  obtain ⟨-, hg5⟩ := Fs.ok_pure.1 h
  subst hg5
  obtain ⟨hruns, hb4, hdir⟩ := registerAll_runs (env := env) hreg hs
  have hs2 : g2.Small := fun w hw => hb4.data w ((Fs.Grows.put _ _ _).mem hput hw)
  have hs1 : g1.Small := fun w hw => hs2 w ((Fs.Grows.flushAll _).mem hfl hw)
  have e : (t0.branches.map fun _ => false) = (feeds.map Feed.raw).map (doneBy 0) :=
    Eq.symm <| hfed.map_eq fun _ _ _ => rfl
  rw [e] at hr
  obtain ⟨hi1, ⟨ops1, hr1, ho1⟩, hst1, hsame, tot, ⟨htot1, htot2⟩, hdata⟩ := writeRounds_feeds
    (fun a ha v hv => hok _ (List.mem_map_of_mem ha) v hv) hi hfed
    (by rw [hname]; exact hst) (Nat.zero_le _) hr hs1
  rw [hname] at hst1
  obtain ⟨hi2, ⟨ops2, hr2, ho2⟩, hdone⟩ := flushAll_feeds hi1 hst1 hfl hs2
  have hd : t1.data = { (WTree.new tn).data with totBytes := tot, entries := longest (storedColumns feeds) } := by
    rw [hdata, hdata0, longest_stored, Nat.sub_zero]
    show ({ (WTree.new tn).data with totBytes := 0 + tot, entries := 0 + (steadiest feeds : Int) } : TreeData) = _
    rw [Int.zero_add, Int.zero_add]
  have hname1 : t1.data.named.name = tn := by rw [hd]; rfl
  rw [hname1] at hput
  rw [hsame, hsis] at hsi'
  cases hsi'
  refine ⟨{ t1 with branches := bs }, ops1 ++ ops2, g2, g3, sis, runs_trans hr1 hr2, ho1.append ho2, hi2, hdone,
    hput, hb4, hv, hl, hruns, hdir, tot, ⟨by rw [longest_stored]; exact htot1, ?_⟩, hd⟩
  rw [htot2]
  congr 1
  unfold feedBytesFrom storedColumns
  rw [List.map_map]
  rfl

/-- Iterators that give the values of the columns and then nothing. -/
theorem MadeOf.of_columns {tn : Str} {cb : Nat} {cols : List Column} {t : WTree}
    (h : buildTree tn cb cols = .ok t) : MadeOf tn cb cols t :=
  ⟨cols.map Column.feed, stored_feed cols, (build_feed tn cb cols).trans h⟩

theorem TreeStored.of_madeOf {env : Env} {path tn : Str} {places : Places} {cb : Nat} {cols : List Column}
    {t0 t : WTree} {f1 f2 : FileW} (hi : Inv path f1) (hok : ∀ c ∈ cols, ∀ v ∈ c.vals, c.ty.Ok v)
    (hb : MadeOf tn cb cols t0) (h : t0.write env places f1 = (.ok t, f2)) (hs : f2.Below2GB) :
    ∃ t' ops g g' sis, TreeStored env path tn places cols f1 f2 t' ops g g' sis := by
  obtain ⟨feeds, rfl, hb⟩ := hb
  exact TreeStored.of_feeds hi hok hb h hs

end Verif
