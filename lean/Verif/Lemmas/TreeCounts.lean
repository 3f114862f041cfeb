import Verif.Lemmas.Session
import Verif.Lemmas.Open
import Verif.Spec.TreeWrite
namespace Verif

/-! ### What a branch counts, whatever happens to the file -/

/-- Same name and number of entries, entries taken from the front of the list. -/
structure WBranch.Took (b b' : WBranch) (n : Option Int) : Prop where
  name : b'.branch.name = b.branch.name
  none : n = none → (b.items = [] ∧ b'.items = [] ∨ b.items = none :: b'.items) ∧
    b'.branch.data.entries = b.branch.data.entries
  some : n.isSome → ∃ x, b.items = some x :: b'.items ∧ b'.branch.data.entries = b.branch.data.entries + 1

@[simp] theorem Branch.withData_data (b : Branch) (d : BranchData) : (b.withData d).data = d := rfl
@[simp] theorem Branch.withData_elem (b : Branch) (d : BranchData) : (b.withData d).elem = b.elem := rfl
@[simp] theorem Branch.withData_branches (b : Branch) (d : BranchData) :
    (b.withData d).branches = b.branches := rfl

/-- Everything but the basket tables is the same. -/
structure WBranch.Same (b b' : WBranch) : Prop where
  name : b'.branch.name = b.branch.name
  items : b'.items = b.items
  entries : b'.branch.data.entries = b.branch.data.entries

theorem WBranch.Same.refl (b : WBranch) : b.Same b := ⟨rfl, rfl, rfl⟩

theorem WBranch.Same.trans {a b c : WBranch} (h : a.Same b) (h' : b.Same c) : a.Same c :=
  ⟨h'.name.trans h.name, h'.items.trans h.items, h'.entries.trans h.entries⟩

theorem WBranch.createNewBasket_same {b b' : WBranch} {bk : WBasket} {tn : Str} {f : FileW}
    (h : b.createNewBasket tn f = .ok (b', bk)) : b.Same b' := by
  unfold WBranch.createNewBasket at h
  simp only at h
  split at h
  · cases h
  · cases h
    constructor
    · simp only [Branch.name, Branch.withData_data]; split <;> rfl
    · rfl
    · simp only [Branch.withData_data]; split <;> rfl

theorem Fs.ok_orPanic {α} {o : Option α} {a : α} {f f' : FileW} :
    Fs.orPanic o f = (.ok a, f') ↔ o = some a ∧ f = f' := by
  cases o with
  | none => simp [Fs.orPanic, Fs.panic]
  | some x =>
    simp only [Fs.orPanic, Fs.ok_pure, Option.some.injEq]

theorem WBranch.flush_same {b b' : WBranch} {f f' : FileW} (h : b.flush f = (.ok b', f')) :
    b.Same b' := by
  unfold WBranch.flush at h
  obtain ⟨bk, _, h0, h⟩ := Fs.ok_bind.1 h
  obtain ⟨⟨bk', tot, zip⟩, _, h1, h⟩ := Fs.ok_bind.1 h
  obtain ⟨rfl, -⟩ := Fs.ok_pure.1 h
  exact ⟨rfl, rfl, rfl⟩

theorem WBranch.currentBasket_same {b b' : WBranch} {bk : WBasket} {tn : Str} {f f' : FileW}
    (h : b.currentBasket tn f = (.ok (b', bk), f')) : b.Same b' := by
  unfold WBranch.currentBasket at h
  rcases hb : b.basket with _ | bk0 <;> rw [hb] at h
  rotate_left
  · cases Fs.ok_pure.1 h |>.1
    exact .refl _
  · obtain ⟨_, _, h0, h⟩ := Fs.ok_bind.1 h
    obtain ⟨rfl, rfl⟩ := Fs.ok_get.1 h0
    obtain ⟨⟨b1, bk1⟩, _, h0, h⟩ := Fs.ok_bind.1 h
    obtain ⟨h1, rfl⟩ := Fs.ok_lift.1 h0
    cases Fs.ok_pure.1 h |>.1
    have := createNewBasket_same h1
    exact ⟨this.name, this.items, this.entries⟩

theorem WBranch.spill_same {b b' : WBranch} {bk : WBasket} {n : Int} {tn : Str} {f f' : FileW}
    (h : b.spill bk n tn f = (.ok b', f')) : b.Same b' := by
  unfold WBranch.spill at h
  split at h
  · simp [Fs.ok_panic] at h
  · split at h
    · obtain ⟨b1, f1, h0, h⟩ := Fs.ok_bind.1 h
      have hs := flush_same h0
      obtain ⟨_, _, h0, h⟩ := Fs.ok_bind.1 h
      obtain ⟨rfl, rfl⟩ := Fs.ok_get.1 h0
      obtain ⟨⟨b2, bk2⟩, _, h0, h⟩ := Fs.ok_bind.1 h
      obtain ⟨h1, rfl⟩ := Fs.ok_lift.1 h0
      cases Fs.ok_pure.1 h |>.1
      have := hs.trans (createNewBasket_same h1)
      exact ⟨this.name, this.items, this.entries⟩
    · cases Fs.ok_pure.1 h |>.1
      exact .refl _

theorem WBranch.fill_counts {b b' : WBranch} {bk bk' : WBasket} {item : Wr Nat} {rest : List (Option (Wr Nat))}
    {n : Int} (h : b.fill bk item rest = .ok (b', bk', n)) :
    b'.branch.name = b.branch.name ∧ b'.items = rest ∧
      b'.branch.data.entries = b.branch.data.entries + 1 := by
  unfold WBranch.fill at h
  split at h
  · obtain ⟨bk1, h0, h⟩ := Res.ok_bind.1 h
    obtain ⟨⟨leaf, wb⟩, h1, h⟩ := Res.ok_bind.1 h
    cases h
    exact ⟨rfl, rfl, rfl⟩
  · cases h

theorem WBranch.write_took {b b' : WBranch} {n : Option Int} {tn : Str} {f f' : FileW}
    (h : b.write tn f = (.ok (b', n), f')) : b.Took b' n := by
  unfold WBranch.write at h
  obtain ⟨⟨b1, bk⟩, f1, h0, h⟩ := Fs.ok_bind.1 h
  have hs := currentBasket_same h0
  simp only at h
  rcases hi : b1.items with _ | ⟨_ | item, rest⟩ <;> rw [hi] at h
  · cases Fs.ok_pure.1 h |>.1
    exact ⟨hs.name, fun _ => ⟨.inl ⟨hs.items ▸ hi, hi⟩, hs.entries⟩, fun h => by cases h⟩
  · cases Fs.ok_pure.1 h |>.1
    exact ⟨hs.name, fun _ => ⟨.inr (hs.items ▸ hi), hs.entries⟩, fun h => by cases h⟩
  · obtain ⟨⟨b2, bk2, n2⟩, _, h0, h⟩ := Fs.ok_bind.1 h
    obtain ⟨h1, rfl⟩ := Fs.ok_lift.1 h0
    obtain ⟨b3, _, h0, h⟩ := Fs.ok_bind.1 h
    cases Fs.ok_pure.1 h |>.1
    obtain ⟨e1, e2, e3⟩ := fill_counts h1
    have hs2 := spill_same h0
    refine ⟨by rw [hs2.name, e1, hs.name], (fun h => by cases h), fun _ => ⟨item, ?_, ?_⟩⟩
    · rw [← hs.items, hi, hs2.items, e2]
    · rw [hs2.entries, e3, hs.entries]

/-! ### Rounds -/

/-- Two lists related element by element. -/
def All2 {α β} (R : α → β → Prop) : List α → List β → Prop
  | [], [] => True
  | a :: as, b :: bs => R a b ∧ All2 R as bs
  | _, _ => False

theorem All2.imp {α β} {R S : α → β → Prop} (h : ∀ a b, R a b → S a b) :
    ∀ {as : List α} {bs : List β}, All2 R as bs → All2 S as bs
  | [], [], _ => trivial
  | _ :: _, _ :: _, ⟨h1, h2⟩ => ⟨h _ _ h1, h2.imp h⟩

theorem All2.nil_left {α β} {R : α → β → Prop} {bs : List β} (h : All2 R [] bs) : bs = [] := by
  cases bs with
  | nil => rfl
  | cons _ _ => exact h.elim

theorem All2.cons_left {α β} {R : α → β → Prop} {a : α} {as : List α} {bs : List β}
    (h : All2 R (a :: as) bs) : ∃ b bs', bs = b :: bs' ∧ R a b ∧ All2 R as bs' := by
  cases bs with
  | nil => exact h.elim
  | cons b bs => exact ⟨b, bs, rfl, h.1, h.2⟩

theorem All2.trans {α β γ} {R : α → β → Prop} {S : β → γ → Prop} {T : α → γ → Prop}
    (hT : ∀ a b c, R a b → S b c → T a c) {as : List α} {bs : List β} {cs : List γ}
    (h : All2 R as bs) (h' : All2 S bs cs) : All2 T as cs := by
  induction as generalizing bs cs with
  | nil => cases h.nil_left; cases h'.nil_left; trivial
  | cons a as ih =>
    obtain ⟨b, bs, rfl, h1, h2⟩ := h.cons_left
    obtain ⟨c, cs, rfl, g1, g2⟩ := h'.cons_left
    exact ⟨hT _ _ _ h1 g1, ih h2 g2⟩

theorem All2.snoc {α β} {R : α → β → Prop} {a : α} {b : β} (hab : R a b) :
    ∀ {as : List α} {bs : List β}, All2 R as bs → All2 R (as ++ [a]) (bs ++ [b])
  | [], [], _ => ⟨hab, trivial⟩
  | _ :: _, _ :: _, ⟨h1, h2⟩ => ⟨h1, h2.snoc hab⟩

theorem All2.map_eq {α β γ} {R : α → β → Prop} {p : α → γ} {q : β → γ} (h : ∀ a b, R a b → p a = q b) :
    ∀ {as : List α} {bs : List β}, All2 R as bs → as.map p = bs.map q
  | [], [], _ => rfl
  | _ :: _, _ :: _, ⟨h1, h2⟩ => by rw [List.map_cons, List.map_cons, h _ _ h1, h2.map_eq h]

/-- After `k` rounds a branch has given its first `k` entries. -/
structure Fed (k : Nat) (c : Column) (b : WBranch) : Prop where
  name : b.branch.name = c.name
  items : b.items = (c.vals.drop k).map fun v => some (c.ty.marshal v)
  entries : b.branch.data.entries = (min k c.vals.length : Nat)

theorem Fed.step {k : Nat} {c : Column} {b b' : WBranch} {n : Option Int} (h : Fed k c b)
    (ht : b.Took b' n) : Fed (k + 1) c b' ∧ (n.isNone = true ↔ c.vals.length ≤ k) := by
  rcases n with _ | n
  · obtain ⟨h1, h3⟩ := ht.none rfl
    obtain ⟨h1, h2⟩ : b.items = [] ∧ b'.items = [] := by
      rcases h1 with h1 | h1
      · exact h1
      · rw [h.items] at h1
        obtain ⟨_, _, _, h1, _⟩ := List.map_eq_cons_iff.1 h1
        cases h1
    have hl : c.vals.length ≤ k := by
      rw [h.items] at h1
      have := List.drop_eq_nil_iff.1 (List.map_eq_nil_iff.1 h1)
      exact this
    refine ⟨⟨ht.name.trans h.name, ?_, ?_⟩, by simpa using hl⟩
    · rw [h2, List.drop_eq_nil_of_le (by omega)]; rfl
    · rw [h3, h.entries]; congr 1; omega
  · obtain ⟨x, h1, h2⟩ := ht.some rfl
    rw [h.items] at h1
    have hl : k < c.vals.length := by
      apply Nat.lt_of_not_le
      intro hle
      rw [List.drop_eq_nil_of_le hle] at h1
      cases h1
    rw [List.drop_eq_getElem_cons hl, List.map_cons] at h1
    injection h1 with _ h1
    refine ⟨⟨ht.name.trans h.name, h1.symm, ?_⟩, by simpa using hl⟩
    rw [h2, h.entries]
    have e : min (k + 1) c.vals.length = min k c.vals.length + 1 := by omega
    rw [e]; rfl

theorem writeRound_fed {tn : Str} {cb k : Nat} {cols : List Column} {bs bs' : List WBranch}
    {tot tot' : Int} {done : List Bool} {log : List (Nat × Event)} {f f' : FileW}
    (hb : All2 (Fed k) cols bs) (h : writeRound tn cb bs tot f = (.ok (bs', done, tot', log), f')) :
    All2 (Fed (k + 1)) cols bs' ∧ done = cols.map (fun c => decide (c.vals.length ≤ k)) ∧
      log = cols.flatMap (fun c => calls cb (.branch c.name)) := by
  induction cols generalizing bs bs' tot tot' done log f f' with
  | nil =>
    cases hb.nil_left
    unfold writeRound at h
    cases Fs.ok_pure.1 h |>.1
    exact ⟨trivial, rfl, rfl⟩
  | cons c cols ih =>
    obtain ⟨b, bs, rfl, h1, h2⟩ := hb.cons_left
    unfold writeRound at h
    obtain ⟨⟨b1, n⟩, f1, h0, h⟩ := Fs.ok_bind.1 h
    have hf := h1.step (WBranch.write_took h0)
    obtain ⟨tot1, f2, h0, h⟩ := Fs.ok_bind.1 h
    obtain ⟨⟨bs1, done1, tot2, log1⟩, f3, h0, h⟩ := Fs.ok_bind.1 h
    obtain ⟨r1, r2, r3⟩ := ih h2 h0
    cases Fs.ok_pure.1 h |>.1
    refine ⟨⟨hf.1, r1⟩, ?_, ?_⟩
    · rw [List.map_cons, ← r2]
      congr 1
      have := hf.2
      cases hn : n.isNone <;> simp_all
    · rw [List.flatMap_cons, ← r3, h1.name]

theorem foldr_max_le {l : List Nat} {k : Nat} : l.foldr max 0 ≤ k ↔ ∀ x ∈ l, x ≤ k := by
  induction l with
  | nil => simp
  | cons a l ih => rw [List.foldr_cons, Nat.max_le, ih]; simp

theorem longest_le {cols : List Column} {k : Nat} :
    longest cols ≤ k ↔ ∀ c ∈ cols, c.vals.length ≤ k := by
  unfold longest
  rw [foldr_max_le]
  simp

/-- All functions are called with everything that happens in a round. -/
def roundLog (cb : Nat) (cols : List Column) : List (Nat × Event) :=
  calls cb .before ++ cols.flatMap fun c => calls cb (.branch c.name)

/-- The branches that had nothing to write in the rounds before the `k`-th. -/
def doneBefore (k : Nat) (cols : List Column) : List Bool := cols.map fun c => decide (c.vals.length < k)

theorem doneBefore_now (k : Nat) (cols : List Column) :
    List.zipWith (fun a b => a || b) (doneBefore k cols) (cols.map fun c => decide (c.vals.length ≤ k)) =
      doneBefore (k + 1) cols := by
  unfold doneBefore
  rw [List.zipWith_map]
  induction cols with
  | nil => rfl
  | cons c cols ih =>
    rw [List.zipWith_cons_cons, ih, List.map_cons]
    congr 1
    by_cases h : c.vals.length ≤ k
    · simp [h, Nat.lt_succ_iff]
    · simp [h, Nat.lt_succ_iff]; omega

theorem all_doneBefore {k : Nat} {cols : List Column} :
    ((doneBefore (k + 1) cols).all fun d => d) = true ↔ longest cols ≤ k := by
  rw [longest_le]
  unfold doneBefore
  simp [Nat.lt_succ_iff]

/-- The rounds up to the end. -/
theorem writeRounds_fed {cols : List Column} : ∀ {fuel k : Nat} {t t' : WTree} {f f' : FileW},
    All2 (Fed k) cols t.branches → k ≤ longest cols → t.data.entries = k →
    writeRounds fuel (doneBefore k cols) t f = (.ok t', f') →
    All2 (Fed (longest cols + 1)) cols t'.branches ∧ t'.data.entries = longest cols ∧
      t'.log = t.log ++ (List.replicate (longest cols + 1 - k) (roundLog t.callbacks cols)).flatten ∧
      t'.callbacks = t.callbacks ∧ t'.sinfos = t.sinfos ∧ t'.data.named = t.data.named
  | 0, k, t, t', f, f', _, _, _, h => by
    unfold writeRounds at h
    simp [Fs.ok_panic] at h
  | fuel + 1, k, t, t', f, f', hb, hk, he, h => by
    unfold writeRounds at h
    obtain ⟨⟨bs, done, tot, log⟩, f1, h0, h⟩ := Fs.ok_bind.1 h
    obtain ⟨r1, r2, r3⟩ := writeRound_fed hb h0
    have hall := all_doneBefore (k := k) (cols := cols)
    simp only [r2, doneBefore_now] at h
    split at h
    · next hd =>
      cases Fs.ok_pure.1 h |>.1
      have hk' : longest cols = k := Nat.le_antisymm (hall.1 hd) hk
      refine ⟨by rw [hk']; exact r1, by rw [hk']; exact he, ?_, rfl, rfl, rfl⟩
      rw [hk', show k + 1 - k = 1 by omega]
      simp [roundLog, r3]
    · next hd =>
      have hk' : k < longest cols := Nat.lt_of_not_le fun hle => hd (hall.2 hle)
      obtain ⟨e1, e2, e3, e4, e5, e6⟩ := writeRounds_fed (k := k + 1)
        (t := { t with branches := bs
                       data := { t.data with totBytes := t.data.totBytes + tot
                                             entries := t.data.entries + 1 }
                       log := t.log ++ calls t.callbacks .before ++ log })
        r1 hk' (by simp [he]) h
      refine ⟨e1, e2, ?_, e4, e5, e6⟩
      rw [e3, show longest cols + 1 - k = (longest cols + 1 - (k + 1)) + 1 by omega,
        List.replicate_succ, List.flatten_cons]
      simp [roundLog, r3]

theorem flushAll_same : ∀ {bs bs' : List WBranch} {f f' : FileW},
    flushAll bs f = (.ok bs', f') → All2 WBranch.Same bs bs'
  | [], bs', f, f', h => by
    unfold flushAll at h
    cases Fs.ok_pure.1 h |>.1
    trivial
  | b :: bs, bs', f, f', h => by
    unfold flushAll at h
    obtain ⟨b1, f1, h0, h⟩ := Fs.ok_bind.1 h
    obtain ⟨bs1, f2, h1, h⟩ := Fs.ok_bind.1 h
    cases Fs.ok_pure.1 h |>.1
    exact ⟨WBranch.flush_same h0, flushAll_same h1⟩

theorem Fed.same {k : Nat} {cols : List Column} {bs bs' : List WBranch}
    (h : All2 (Fed k) cols bs) (h' : All2 WBranch.Same bs bs') : All2 (Fed k) cols bs' :=
  h.trans (fun _ _ _ h1 g1 => ⟨g1.name.trans h1.name, g1.items.trans h1.items,
    g1.entries.trans h1.entries⟩) h'

theorem WTree.close_same {env : Env} {places : Places} {t t' : WTree} {f f' : FileW}
    (h : t.close env places f = (.ok t', f')) :
    All2 WBranch.Same t.branches t'.branches ∧ t'.data = t.data ∧ t'.log = t.log := by
  unfold WTree.close at h
  obtain ⟨bs, f1, h0, h⟩ := Fs.ok_bind.1 h
  obtain ⟨_, f2, h1, h⟩ := Fs.ok_bind.1 h
  obtain ⟨sis, _, h2, h⟩ := Fs.ok_bind.1 h
  obtain ⟨_, f3, h3, h⟩ := Fs.ok_bind.1 h
  cases Fs.ok_pure.1 h |>.1
  exact ⟨flushAll_same h0, rfl, rfl⟩

/-! ### Building a tree -/

theorem WBranch.new_fed {c : Column} {iobits : Nat} {b : WBranch} {sis : List StreamerInfo}
    (h : WBranch.new c.ty c.name ((c.vals.map some).map (Option.map c.ty.marshal)) iobits = .ok (b, sis)) : Fed 0 c b := by
  obtain ⟨ty, name, vals⟩ := c
  unfold WBranch.new at h
  obtain ⟨leaf, h0, h⟩ := Res.ok_bind.1 h
  simp only at h
  split at h
  · obtain ⟨cn, h1, h⟩ := Res.ok_bind.1 h
    obtain ⟨si, h2, h⟩ := Res.ok_bind.1 h
    cases h
    exact ⟨rfl, by simp, by simp [Branch.data]⟩
  · cases h
    exact ⟨rfl, by simp, by simp [Branch.data]⟩
  · cases h
    exact ⟨rfl, by simp, by simp [Branch.data]⟩

theorem WTree.pushBranch_ok {t t' : WTree} {ty : Ty} {name : Str} {items : List (Option (Wr Nat))}
    (h : t.pushBranch ty name items = .ok t') : ∃ b sis,
    WBranch.new ty name items t.data.iobits = .ok (b, sis) ∧
      t' = { t with branches := t.branches ++ [b], sinfos := t'.sinfos } ∧
      (t.sinfos.isSome → t'.sinfos = some (t.sinfos.getD [] ++ sis)) := by
  unfold WTree.pushBranch at h
  obtain ⟨⟨b, sis⟩, h0, h⟩ := Res.ok_bind.1 h
  refine ⟨b, sis, h0, ?_⟩
  simp only at h
  split at h
  · next hs =>
    cases h
    refine ⟨rfl, fun hi => ?_⟩
    obtain ⟨l, hl⟩ := Option.isSome_iff_exists.1 hi
    simp [hl, hs]
  · split at h
    · cases h
    · next l hl =>
      cases h
      exact ⟨rfl, fun _ => by simp [hl]⟩

theorem build_fed {cols done : List Column} {t t' : WTree} (ht : All2 (Fed 0) done t.branches)
    (h : cols.foldlM (fun t c => t.newBranch c.ty c.name (c.vals.map some)) t = .ok t') :
    All2 (Fed 0) (done ++ cols) t'.branches ∧ t' = { t with branches := t'.branches, sinfos := t'.sinfos } := by
  induction cols generalizing done t with
  | nil => cases h; exact ⟨by simpa using ht, rfl⟩
  | cons c cols ih =>
    rw [List.foldlM_cons] at h
    obtain ⟨t1, h0, h⟩ := Res.ok_bind.1 h
    obtain ⟨b, sis, h1, h2, -⟩ := WTree.pushBranch_ok h0
    have := ih (done := done ++ [c]) (t := t1) (by rw [h2]; exact ht.snoc (WBranch.new_fed h1)) h
    refine ⟨by simpa using this.1, ?_⟩
    rw [this.2, h2]

theorem buildTree_fed {name : Str} {cb : Nat} {cols : List Column} {t : WTree}
    (h : buildTree name cb cols = .ok t) :
    All2 (Fed 0) cols t.branches ∧
      t = { WTree.new name with callbacks := cb, branches := t.branches, sinfos := t.sinfos } := by
  have := build_fed (done := []) (by trivial) h
  exact ⟨by simpa using this.1, this.2⟩

theorem All2.nothingDone {cols : List Column} {bs : List WBranch} (h : All2 (Fed 0) cols bs) :
    (bs.map fun _ => false) = doneBefore 0 cols :=
  Eq.symm <| h.map_eq fun c _ _ => by simp

/-- Writing the tree. -/
theorem WTree.write_fed {env : Env} {places : Places} {name : Str} {cb : Nat} {cols : List Column}
    {t t' : WTree} {f f' : FileW} (hb : buildTree name cb cols = .ok t)
    (h : t.write env places f = (.ok t', f')) :
    All2 (Fed (longest cols + 1)) cols t'.branches ∧ t'.data.entries = longest cols ∧
      t'.log = (List.replicate (longest cols + 1) (roundLog cb cols)).flatten := by
  obtain ⟨h1, h2⟩ := buildTree_fed hb
  unfold WTree.write at h
  obtain ⟨t1, f1, h0, h⟩ := Fs.ok_bind.1 h
  obtain ⟨e1, e2, e3, e4, -⟩ := writeRounds_fed (k := 0) h1 (Nat.zero_le _) (by rw [h2]; rfl) (h1.nothingDone ▸ h0)
  obtain ⟨g1, g2, g3⟩ := WTree.close_same h
  refine ⟨Fed.same e1 g1, by rw [g2, e2], ?_⟩
  rw [g3, e3, h2]
  rfl

/-- The bound on the number of rounds is never reached. -/
theorem writeRounds_fuel {cols : List Column} {fuel fuel' k : Nat} {t : WTree} {f : FileW}
    (hb : All2 (Fed k) cols t.branches) (h : longest cols < fuel + k) (h' : longest cols < fuel' + k) (hk : k ≤ longest cols) :
    writeRounds fuel (doneBefore k cols) t f = writeRounds fuel' (doneBefore k cols) t f := by
  induction fuel generalizing fuel' k t f with
  | zero => omega
  | succ fuel ih =>
    obtain ⟨fuel', rfl⟩ : ∃ m, fuel' = m + 1 := ⟨fuel' - 1, by omega⟩
    unfold writeRounds
    rcases hr : writeRound t.data.named.name t.callbacks t.branches 0 f with ⟨e | ⟨bs, done, tot, log⟩, f1⟩
    · rw [Fs.bind_of_err hr, Fs.bind_of_err hr]
    · rw [Fs.bind_of_ok hr, Fs.bind_of_ok hr]
      obtain ⟨r1, r2, -⟩ := writeRound_fed hb hr
      simp only [r2, doneBefore_now]
      split
      · rfl
      · next hd =>
        have hall := all_doneBefore (k := k) (cols := cols)
        have hk' : k < longest cols := Nat.lt_of_not_le fun hle => hd (hall.2 hle)
        exact ih (k := k + 1) r1 (by omega) (by omega) hk'

theorem longest_left {cols : List Column} {t : WTree} (hb : All2 (Fed 0) cols t.branches) :
    longest cols ≤ t.left := by
  unfold WTree.left
  generalize t.branches = bs at hb
  induction cols generalizing bs with
  | nil => exact Nat.zero_le _
  | cons c cols ih =>
    obtain ⟨b, bs, rfl, h1, h2⟩ := hb.cons_left
    have := ih bs h2
    have h0 : b.items.length = c.vals.length := by rw [h1.items]; simp
    have e : longest (c :: cols) = max c.vals.length (longest cols) := rfl
    rw [e, List.map_cons, List.sum_cons, h0]
    omega

end Verif
