import Verif.Lemmas.BranchRead
import Verif.Lemmas.Growing
import Verif.Props.Puts
import Verif.Lemmas.Infos
import Verif.Spec.TreeSession
/-
Writing a tree is a sequence of calls on the file: the baskets, the tree record, the class records.
-/
namespace Verif

/-- Only baskets are stored. -/
def OnlyBaskets (ops : List Op) : Prop := ∀ op ∈ ops, ∃ bk, op = Op.basket bk

theorem Stores.runs {env : Env} {f f' : FileW} (h : Stores f f') :
    ∃ ops, Runs env f ops f' ∧ OnlyBaskets ops := by
  rcases h with rfl | ⟨bk, r, hw, hb⟩
  · exact ⟨[], .nil, fun op h => by cases h⟩
  · refine ⟨[] ++ [.basket bk], .snoc .nil (r := .ok ()) (g' := f') ?_ (fun h => by cases h) hb, ?_⟩
    · unfold Op.run
      simp only [hw]
    · intro op h
      rw [List.nil_append] at h
      exact ⟨bk, List.mem_singleton.1 h⟩

theorem OnlyBaskets.append {a b : List Op} (ha : OnlyBaskets a) (hb : OnlyBaskets b) : OnlyBaskets (a ++ b) := by
  intro op h
  rcases List.mem_append.1 h with h | h
  · exact ha op h
  · exact hb op h

/-- The branch made for a column. -/
structure Made (c : Column) (b0 : Branch) (l0 : Leaf) : Prop where
  leaf : Leaf.new c.ty c.name = .ok l0
  branch : b0 = madeBranch c.ty c.name 0 l0
  vec : ∀ e, c.ty = .vec e → e.stlContent ≠ none

/-- After `k` rounds. -/
def AtRound (env : Env) (tn path : Str) (f : FileW) (k : Nat) (c : Column) (b : WBranch) : Prop :=
  ∃ b0 l0 done cur, Made c b0 l0 ∧ ColumnState env tn c (min k c.vals.length) b f path b0 l0 done cur

/-- After the last flush. -/
def DoneAt (tn path : Str) (f : FileW) (c : Column) (b : WBranch) : Prop :=
  ∃ b0 l0 done, Made c b0 l0 ∧ ColumnDone tn c b f path b0 l0 done

theorem AtRound.mono {env : Env} {tn path : Str} {f f' : FileW} {k : Nat} {c : Column} {b : WBranch}
    (h : AtRound env tn path f k c b) (hi : Inv path f') (ht : ∀ w ∈ f.trace, w ∈ f'.trace) :
    AtRound env tn path f' k c b := by
  obtain ⟨b0, l0, done, cur, hm, h⟩ := h
  exact ⟨b0, l0, done, cur, hm, h.mono hi ht⟩

theorem DoneAt.mono {tn path : Str} {f f' : FileW} {c : Column} {b : WBranch}
    (h : DoneAt tn path f c b) (hi : Inv path f') (ht : ∀ w ∈ f.trace, w ∈ f'.trace) :
    DoneAt tn path f' c b := by
  obtain ⟨b0, l0, done, hm, h⟩ := h
  exact ⟨b0, l0, done, hm, h.mono hi ht⟩

/-- Everything written so far is below 2 GB. -/
def FileW.Small (f : FileW) : Prop := ∀ w ∈ f.trace, w.pos + w.data.length ≤ 2000000000

theorem Runs.trace {env : Env} {path : Str} {ops : List Op} {f g : FileW} (hi : Inv path f)
    (h : Runs env f ops g) : ∀ w ∈ f.trace, w ∈ g.trace := by
  obtain ⟨vs, ht, -⟩ := runs_grows hi h
  intro w hw
  rw [ht]
  exact List.mem_append_left _ hw

theorem addBytes_ok {tot tot' : Int} {n : Option Int} {f f' : FileW} (h : addBytes tot n f = (.ok tot', f')) :
    f' = f ∧ (InI 4 tot → InI 4 tot') ∧ tot' = tot + n.getD 0 := by
  cases n with
  | none =>
    obtain ⟨rfl, rfl⟩ := Fs.ok_pure.1 h
    exact ⟨rfl, id, (Int.add_zero _).symm⟩
  | some n =>
    obtain ⟨h1, rfl, rfl⟩ := Fs.ok_i32.1 h
    exact ⟨rfl, fun _ => h1, rfl⟩

/-- The bytes of the `k`-th entries. -/
def roundBytes (k : Nat) (cols : List Column) : Nat :=
  (cols.map fun c => (((c.vals.drop k).take 1).map fun v => (entryBytes c.ty v).length).sum).sum

/-- The bytes of the entries from the `k`-th on. -/
def restBytes (k : Nat) (cols : List Column) : Nat :=
  (cols.map fun c => ((c.vals.drop k).map fun v => (entryBytes c.ty v).length).sum).sum

theorem restBytes_step (k : Nat) (cols : List Column) :
    restBytes k cols = roundBytes k cols + restBytes (k + 1) cols := by
  unfold restBytes roundBytes
  induction cols with
  | nil => rfl
  | cons c cols ih =>
    simp only [List.map_cons, List.sum_cons]
    rw [ih]
    have : ((c.vals.drop k).map fun v => (entryBytes c.ty v).length).sum =
        (((c.vals.drop k).take 1).map fun v => (entryBytes c.ty v).length).sum +
        ((c.vals.drop (k + 1)).map fun v => (entryBytes c.ty v).length).sum := by
      rw [← List.drop_drop, ← List.sum_append, ← List.map_append, List.take_append_drop]
    omega

theorem restBytes_end {k : Nat} {cols : List Column} (h : longest cols ≤ k) : restBytes k cols = 0 := by
  replace h := longest_le.1 h
  unfold restBytes
  induction cols with
  | nil => rfl
  | cons c cols ih =>
    simp only [List.map_cons, List.sum_cons]
    rw [ih (fun c hc => h c (List.mem_cons_of_mem _ hc)), List.drop_eq_nil_of_le (h c (List.mem_cons_self ..))]
    rfl

/-- One round. -/
theorem writeRound_state {env : Env} {tn path : Str} {cb k : Nat} {cols : List Column}
    (hok : ∀ c ∈ cols, ∀ v ∈ c.vals, c.ty.Ok v) {bs bs' : List WBranch}
    {tot tot' : Int} {done : List Bool} {log : List (Nat × Event)} {f f' : FileW} (hi : Inv path f)
    (hb : All2 (AtRound env tn path f k) cols bs)
    (h : writeRound tn cb bs tot f = (.ok (bs', done, tot', log), f')) (hs : f'.Small) :
    Inv path f' ∧ (∃ ops, Runs env f ops f' ∧ OnlyBaskets ops) ∧
      All2 (AtRound env tn path f' (k + 1)) cols bs' ∧ (InI 4 tot → InI 4 tot') ∧
      tot' = tot + roundBytes k cols := by
  induction cols generalizing bs bs' tot tot' done log f f' with
  | nil =>
    cases hb.nil_left
    unfold writeRound at h
    obtain ⟨hx, rfl⟩ := Fs.ok_pure.1 h
    cases hx
    exact ⟨hi, ⟨[], .nil, fun op h => by cases h⟩, trivial, id, (Int.add_zero _).symm⟩
  | cons c cols ih =>
    obtain ⟨b, bs, rfl, h1, h2⟩ := hb.cons_left
    unfold writeRound at h
    obtain ⟨⟨b1, n⟩, f1, hw, ha1⟩ := Fs.ok_bind.1 h
    obtain ⟨tot1, f2, ha, hb1⟩ := Fs.ok_bind.1 ha1
    obtain ⟨⟨bs1, done1, tot2, log1⟩, f3, hr, hc1⟩ := Fs.ok_bind.1 hb1
    obtain ⟨hf2, ht1, hadd⟩ := addBytes_ok ha
    subst hf2
    obtain ⟨hx, hf3⟩ := Fs.ok_pure.1 hc1
    subst hf3
    cases hx
    have hs1 : f2.Small := fun w hw => hs w ((Fs.Grows.writeRound _ _ _ _).mem hr hw)
    obtain ⟨b0, l0, dn, cur, hm, hst⟩ := h1
    obtain ⟨hstores, hcase⟩ := hst.write (hok c (List.mem_cons_self ..)) hw hs1
    obtain ⟨ops1, hr1, hb1⟩ := hstores.runs (env := env)
    have hi1 := runs_inv hi hr1
    have htr1 := hr1.trace hi
    obtain ⟨hi3, ⟨ops2, hr2, hb2⟩, hall, htot, hsum⟩ := ih (fun c hc => hok c (List.mem_cons_of_mem _ hc)) hi1
      (h2.imp fun c b hcb => hcb.mono hi1 htr1) hr hs
    refine ⟨hi3, ⟨ops1 ++ ops2, runs_trans hr1 hr2, hb1.append hb2⟩, ⟨?_, hall⟩, fun ht => htot (ht1 ht), ?_⟩
    rotate_left
    · have e : roundBytes k (c :: cols) = (((c.vals.drop k).take 1).map fun v => (entryBytes c.ty v).length).sum +
          roundBytes k cols := rfl
      have hn : n.getD 0 = ((((c.vals.drop k).take 1).map fun v => (entryBytes c.ty v).length).sum : Int) := by
        rcases hcase with ⟨rfl, hn, -⟩ | ⟨v, -, hv, rfl, dn', cur', hst', -⟩
        · rw [List.drop_eq_nil_of_le (by omega)]
          rfl
        · have hk : min k c.vals.length = k := by
            have := (List.getElem?_eq_some_iff.1 hv).1
            omega
          rw [hk] at hv hst'
          obtain ⟨hlt, hv⟩ := List.getElem?_eq_some_iff.1 hv
          have hmem : v ∈ c.vals.take (k + 1) := by
            rw [List.take_add_one, List.getElem?_eq_getElem hlt, hv]
            simp
          have hle := hst'.entry_le hmem
          rw [List.drop_eq_getElem_cons hlt, hv]
          show asI 4 _ = _
          rw [asI4_nat (by simp only [kStartBigFile]; omega)]
          simp
      rw [hsum, hadd, hn, e]
      push_cast
      omega
    have htr2 := hr2.trace hi1
    rcases hcase with ⟨-, hn, hst'⟩ | ⟨_, -, -, -, dn', cur', hst', -⟩
    · refine ⟨b0, l0, dn, cur, hm, ?_⟩
      have e : min (k + 1) c.vals.length = min k c.vals.length := by omega
      rw [e]
      exact hst'.mono hi3 htr2
    · refine ⟨b0, l0, dn', cur', hm, ?_⟩
      have hle := hst'.le
      have e : min (k + 1) c.vals.length = min k c.vals.length + 1 := by omega
      rw [e]
      exact hst'.mono hi3 htr2

/-- The rounds up to the end. -/
theorem writeRounds_state {env : Env} {path : Str} {cols : List Column}
    (hok : ∀ c ∈ cols, ∀ v ∈ c.vals, c.ty.Ok v) :
    ∀ {fuel k : Nat} {t t' : WTree} {f f' : FileW}, Inv path f →
    All2 (Fed k) cols t.branches → All2 (AtRound env t.data.named.name path f k) cols t.branches →
    k ≤ longest cols → writeRounds fuel (doneBefore k cols) t f = (.ok t', f') → f'.Small →
    Inv path f' ∧ (∃ ops, Runs env f ops f' ∧ OnlyBaskets ops) ∧
      All2 (AtRound env t.data.named.name path f' (longest cols + 1)) cols t'.branches ∧
      t'.sinfos = t.sinfos ∧
      (∃ tot : Int, (tot.natAbs ≤ (longest cols + 1 - k) * 2 ^ 31 ∧ tot = restBytes k cols) ∧
        t'.data = { t.data with totBytes := t.data.totBytes + tot, entries := t'.data.entries })
  | 0, k, t, t', f, f', _, _, _, _, h, _ => by
    unfold writeRounds at h
    simp [Fs.ok_panic] at h
  | fuel + 1, k, t, t', f, f', hi, hfed, hst, hk, h, hs => by
    unfold writeRounds at h
    obtain ⟨⟨bs, done, tot, log⟩, f1, h0, h⟩ := Fs.ok_bind.1 h
    obtain ⟨r1, r2, -⟩ := writeRound_fed hfed h0
    have hall := all_doneBefore (k := k) (cols := cols)
    simp only [r2, doneBefore_now] at h
    have hs1 : f1.Small := by
      split at h
      · obtain ⟨-, rfl⟩ := Fs.ok_pure.1 h
        exact hs
      · exact fun w hw => hs w ((Fs.Grows.writeRounds _ _ _).mem h hw)
    obtain ⟨hi1, ⟨ops1, hr1, hb1⟩, hst1, htot, hsum⟩ := writeRound_state hok hi hst h0 hs1
    rw [Int.zero_add] at hsum
    have htot := htot (by decide)
    have habs : tot.natAbs ≤ 2 ^ 31 := by
      have h1 := htot.1
      have h2 := htot.2
      rw [show ((256 ^ 4 : Nat) : Int) = 4294967296 from rfl] at h1 h2
      omega
    split at h
    · next hd =>
      obtain ⟨hx, rfl⟩ := Fs.ok_pure.1 h
      cases hx
      have hk' : longest cols = k := Nat.le_antisymm (hall.1 hd) hk
      refine ⟨hi1, ⟨ops1, hr1, hb1⟩, by rw [hk']; exact hst1, rfl, tot, ⟨?_, ?_⟩, rfl⟩
      · rw [hk', show k + 1 - k = 1 by omega]
        omega
      · rw [restBytes_step, restBytes_end (k := k + 1) (by omega), hsum]
        rfl
    · next hd =>
      have hk' : k < longest cols := Nat.lt_of_not_le fun hle => hd (hall.2 hle)
      obtain ⟨hi2, ⟨ops2, hr2, hb2⟩, e1, e2, tot2, ⟨e3, e5⟩, e4⟩ := writeRounds_state (k := k + 1)
        (t := { t with branches := bs
                       data := { t.data with totBytes := t.data.totBytes + tot
                                             entries := t.data.entries + 1 }
                       log := t.log ++ calls t.callbacks .before ++ log })
        hok hi1 r1 hst1 hk' h hs
      refine ⟨hi2, ⟨ops1 ++ ops2, runs_trans hr1 hr2, hb1.append hb2⟩, e1, e2, tot + tot2, ⟨?_, ?_⟩, ?_⟩
      · have : longest cols + 1 - k = (longest cols + 1 - (k + 1)) + 1 := by omega
        rw [this, Nat.add_mul, Nat.one_mul]
        omega
      · rw [e5, hsum, restBytes_step k]
        push_cast
        rfl
      · rw [← Int.add_assoc]
        exact e4

/-- The last flush of every branch. -/
theorem flushAll_state {env : Env} {tn path : Str} {k : Nat} : ∀ {cols : List Column} {bs bs' : List WBranch}
    {f f' : FileW}, Inv path f → (∀ c ∈ cols, c.vals.length ≤ k) →
    All2 (AtRound env tn path f k) cols bs → flushAll bs f = (.ok bs', f') → f'.Small →
    Inv path f' ∧ (∃ ops, Runs env f ops f' ∧ OnlyBaskets ops) ∧ All2 (DoneAt tn path f') cols bs'
  | [], bs, bs', f, f', hi, _, hb, h, _ => by
    cases hb.nil_left
    unfold flushAll at h
    obtain ⟨hx, rfl⟩ := Fs.ok_pure.1 h
    cases hx
    exact ⟨hi, ⟨[], .nil, fun op h => by cases h⟩, trivial⟩
  | c :: cols, bs, bs', f, f', hi, hk, hb, h, hs => by
    obtain ⟨b, bs, rfl, h1, h2⟩ := hb.cons_left
    unfold flushAll at h
    obtain ⟨b1, f1, hw, h⟩ := Fs.ok_bind.1 h
    obtain ⟨bs1, f2, hr, h⟩ := Fs.ok_bind.1 h
    obtain ⟨hx, hf⟩ := Fs.ok_pure.1 h
    subst hf
    cases hx
    have hs1 : f1.Small := fun w hw => hs w ((Fs.Grows.flushAll _).mem hr hw)
    obtain ⟨b0, l0, dn, cur, hm, hst⟩ := h1
    obtain ⟨hi1, htr1, hstores, d, ht, -, -, htk⟩ := hst.flush hw hs1
    obtain ⟨ops1, hr1, hb1⟩ := hstores.runs (env := env)
    obtain ⟨hi2, ⟨ops2, hr2, hb2⟩, hall⟩ := flushAll_state hi1 (fun c hc => hk c (List.mem_cons_of_mem _ hc))
      (h2.imp fun c b hcb => hcb.mono hi1 htr1) hr hs
    have e : min k c.vals.length = c.vals.length := by
      have := hk c (List.mem_cons_self ..)
      omega
    rw [e] at ht htk
    rw [List.take_length] at htk
    refine ⟨hi2, ⟨ops1 ++ ops2, runs_trans hr1 hr2, hb1.append hb2⟩, ⟨b0, l0, dn ++ [d], hm, ?_⟩, hall⟩
    have htr2 := hr2.trace hi1
    exact ⟨hst.fresh, hst.name, hi2, ht.mono htr2, htk, by simp⟩


/-! ### Making the tree -/

theorem Made.of_new {c : Column} {b : WBranch} {sis : List StreamerInfo}
    (h : WBranch.new c.ty c.name (c.vals.map fun v => some (c.ty.marshal v)) 0 = .ok (b, sis)) :
    ∃ l0, Made c b.branch l0 ∧ (∀ si ∈ sis, ∃ e, c.ty = .vec e ∧ makeVectorStreamer e = .ok si) := by
  obtain ⟨l, h1, h2, h3, h4⟩ := WBranch.new_made h
  refine ⟨l, ⟨h1, h2, fun e he => (h3 e he).1⟩, fun si hs => ?_⟩
  by_cases hv : ∃ e, c.ty = .vec e
  · obtain ⟨e, he⟩ := hv
    obtain ⟨-, si', hm, rfl⟩ := h3 e he
    rw [List.mem_singleton.1 hs]
    exact ⟨e, he, hm⟩
  · rw [h4 fun e he => hv ⟨e, he⟩] at hs
    cases hs

theorem AtRound.start {env : Env} {tn path : Str} {f : FileW} (hi : Inv path f) {c : Column} {b : WBranch}
    {sis : List StreamerInfo}
    (h : WBranch.new c.ty c.name (c.vals.map fun v => some (c.ty.marshal v)) 0 = .ok (b, sis)) :
    AtRound env tn path f 0 c b := by
  obtain ⟨l, hm, -⟩ := Made.of_new h
  obtain ⟨l0, hst⟩ := ColumnState.start (env := env) (tn := tn) hi h
  have e : l0 = l := by
    have h1 := hst.fresh.leaves
    rw [hm.branch] at h1
    injection h1 with h1
    exact h1.symm
  subst e
  exact ⟨_, l0, [], [], hm, by rw [Nat.zero_min]; exact hst⟩

theorem new_listed {c : Column} {b : WBranch} {sis : List StreamerInfo}
    (h : WBranch.new c.ty c.name (c.vals.map fun v => some (c.ty.marshal v)) 0 = .ok (b, sis)) {e : Ty}
    (he : c.ty = .vec e) : ∃ si ∈ sis, makeVectorStreamer e = .ok si := by
  obtain ⟨l, h1, h2, h3, h4⟩ := WBranch.new_made h
  obtain ⟨-, si', hm, rfl⟩ := h3 e he
  exact ⟨si', List.mem_singleton.2 rfl, hm⟩

/-- The class records of vectors among the columns. -/
def VectorInfos (cols : List Column) (sis : List StreamerInfo) : Prop :=
  ∀ si ∈ sis, ∃ c ∈ cols, ∃ e, c.ty = .vec e ∧ makeVectorStreamer e = .ok si

/-- Every vector among the columns has its class record. -/
def VectorsListed (cols : List Column) (sis : List StreamerInfo) : Prop :=
  ∀ c ∈ cols, ∀ e, c.ty = .vec e → ∃ si ∈ sis, makeVectorStreamer e = .ok si

theorem build_state {env : Env} {tn path : Str} {f : FileW} (hi : Inv path f) {cols done : List Column}
    {t t' : WTree} (hio : t.data.iobits = 0) (ht : All2 (AtRound env tn path f 0) done t.branches)
    (hs : ∃ sis, t.sinfos = some sis ∧ VectorInfos done sis ∧ VectorsListed done sis)
    (h : cols.foldlM (fun t c => t.newBranch c.ty c.name (c.vals.map some)) t = .ok t') :
    All2 (AtRound env tn path f 0) (done ++ cols) t'.branches ∧
      ∃ sis, t'.sinfos = some sis ∧ VectorInfos (done ++ cols) sis ∧ VectorsListed (done ++ cols) sis := by
  induction cols generalizing done t with
  | nil =>
    cases h
    rw [List.append_nil]
    exact ⟨ht, hs⟩
  | cons c cols ih =>
    rw [List.foldlM_cons] at h
    obtain ⟨t1, h0, h⟩ := Res.ok_bind.1 h
    obtain ⟨b, sis, h1, h2, h3⟩ := WTree.pushBranch_ok h0
    obtain ⟨sis0, hs0, hv, hl⟩ := hs
    rw [hio] at h1
    have e : (c.vals.map some).map (Option.map c.ty.marshal) = c.vals.map fun v => some (c.ty.marshal v) := by
      rw [List.map_map]; rfl
    rw [e] at h1
    obtain ⟨l, -, hsi⟩ := Made.of_new h1
    have := ih (done := done ++ [c]) (t := t1) (by rw [h2]; exact hio)
      (by rw [h2]; exact ht.snoc (.start hi h1)) ⟨sis0 ++ sis, ?_, ?_, ?_⟩ h
    · rwa [List.append_assoc] at this
    · rw [h3 (by rw [hs0]; rfl), hs0]; rfl
    · intro si hmem
      rcases List.mem_append.1 hmem with hmem | hmem
      · obtain ⟨c', hc', r⟩ := hv si hmem
        exact ⟨c', List.mem_append_left _ hc', r⟩
      · obtain ⟨e, he, hm⟩ := hsi si hmem
        exact ⟨c, by simp, e, he, hm⟩
    · intro c' hc' e he
      rcases List.mem_append.1 hc' with hc' | hc'
      · obtain ⟨si, hsi, r⟩ := hl c' hc' e he
        exact ⟨si, List.mem_append_left _ hsi, r⟩
      · rw [List.mem_singleton.1 hc'] at he
        obtain ⟨si, hsi, r⟩ := new_listed h1 he
        exact ⟨si, List.mem_append_right _ hsi, r⟩

theorem buildTree_state {env : Env} {tn path : Str} {f : FileW} (hi : Inv path f) {cb : Nat} {cols : List Column}
    {t : WTree} (h : buildTree tn cb cols = .ok t) :
    All2 (AtRound env tn path f 0) cols t.branches ∧ ∃ sis, t.sinfos = some sis ∧ VectorInfos cols sis ∧ VectorsListed cols sis := by
  exact build_state (env := env) (tn := tn) hi (done := []) (t := { WTree.new tn with callbacks := cb }) rfl
    (by trivial) ⟨[], rfl, (fun si h => by cases h), fun c h => by cases h⟩ h

/-! ### Closing the tree -/

theorem registerAll_runs {env : Env} : ∀ {sis : List StreamerInfo} {f f' : FileW} {u : Unit},
    registerAll sis f = (.ok u, f') → f'.Below2GB →
    Runs env f (sis.map Op.register) f' ∧ f.Below2GB ∧ f'.dir = f.dir
  | [], f, f', _, h, hb => by
    unfold registerAll at h
    obtain ⟨-, rfl⟩ := Fs.ok_pure.1 h
    exact ⟨.nil, hb, rfl⟩
  | si :: sis, f, f', _, h, hb => by
    unfold registerAll at h
    rw [Fs.bind_of_ok (registerInfo_eq si f)] at h
    obtain ⟨h1, h2, h3⟩ := registerAll_runs (env := env) h hb
    have hb0 : f.Below2GB := ⟨h2.end_, h2.data⟩
    refine ⟨?_, hb0, h3⟩
    have h0 : Runs env f ([] ++ [Op.register si]) _ :=
      .snoc .nil (registerInfo_eq si f) (fun h => by cases h) h2
    exact runs_trans h0 h1

/-- What writing a tree does: it stores baskets, the record of the tree and class records, and the tables
of the branches say where the entries are. -/
structure TreeStored (env : Env) (path tn : Str) (places : Places) (cols : List Column) (f1 f2 : FileW)
    (t : WTree) (ops : List Op) (g g' : FileW) (sis : List StreamerInfo) : Prop where
  baskets : Runs env f1 ops g
  only : OnlyBaskets ops
  inv : Inv path g
  branches : All2 (DoneAt tn path g) cols t.branches
  put : put env tn (t.putObj places) g = (.ok (), g')
  small : g'.Below2GB
  infos : VectorInfos cols sis
  listed : VectorsListed cols sis
  registers : Runs env g' (sis.map Op.register) f2
  keys : f2.dir = g'.dir
  data : ∃ tot : Int, (tot.natAbs ≤ (longest cols + 1) * 2 ^ 31 ∧ tot = ((cols.map Column.bytes).sum : Nat)) ∧
    t.data = { (WTree.new tn).data with totBytes := tot, entries := longest cols }

theorem TreeStored.of_write {env : Env} {path tn : Str} {places : Places} {cb : Nat} {cols : List Column}
    {t0 t : WTree} {f1 f2 : FileW} (hi : Inv path f1) (hok : ∀ c ∈ cols, ∀ v ∈ c.vals, c.ty.Ok v)
    (hb : buildTree tn cb cols = .ok t0) (h : t0.write env places f1 = (.ok t, f2)) (hs : f2.Below2GB) :
    ∃ t' ops g g' sis, TreeStored env path tn places cols f1 f2 t' ops g g' sis := by
  obtain ⟨hfed, ht0⟩ := buildTree_fed hb
  obtain ⟨hst, sis, hsis, hv, hl⟩ := buildTree_state (env := env) hi hb
  have hname : t0.data.named.name = tn := by rw [ht0]; rfl
  unfold WTree.write at h
  obtain ⟨t1, g1, hr, h⟩ := Fs.ok_bind.1 h
  unfold WTree.close at h
  obtain ⟨bs, g2, hfl, h⟩ := Fs.ok_bind.1 h
  dsimp only at h
  obtain ⟨u, g3, hput, h⟩ := Fs.ok_bind.1 h
  obtain ⟨sis', g4, hsi, h⟩ := Fs.ok_bind.1 h
  obtain ⟨hsi', hg4⟩ := Fs.ok_orPanic.1 hsi
  subst hg4
  obtain ⟨u', g5, hreg, h⟩ := Fs.ok_bind.1 h
  obtain ⟨-, hg5⟩ := Fs.ok_pure.1 h
  subst hg5
  obtain ⟨hruns, hb4, hdir⟩ := registerAll_runs (env := env) hreg hs
  have hs2 : g2.Small := fun w hw => hb4.data w ((Fs.Grows.put _ _ _).mem hput hw)
  have hs1 : g1.Small := fun w hw => hs2 w ((Fs.Grows.flushAll _).mem hfl hw)
  have hr' : writeRounds (t0.left + 1) (doneBefore 0 cols) t0 f1 = (.ok t1, g1) := hfed.nothingDone ▸ hr
  obtain ⟨hi1, ⟨ops1, hr1, ho1⟩, hst1, hsame, tot, htot, hdata⟩ := writeRounds_state hok hi hfed
    (by rw [hname]; exact hst) (Nat.zero_le _) hr' hs1
  obtain ⟨-, hent, -⟩ := writeRounds_fed (k := 0) hfed (Nat.zero_le _) (by rw [ht0]; rfl) hr'
  rw [hname] at hst1
  obtain ⟨hi2, ⟨ops2, hr2, ho2⟩, hdone⟩ := flushAll_state hi1 (k := longest cols + 1)
    (fun c hc => Nat.le_succ_of_le (longest_le.1 (Nat.le_refl _) c hc)) hst1 hfl hs2
  have hd : t1.data = { (WTree.new tn).data with totBytes := tot, entries := longest cols } := by
    rw [hdata, hent, ht0]
    show ({ (WTree.new tn).data with totBytes := 0 + tot, entries := longest cols } : TreeData) = _
    rw [Int.zero_add]
  have hname1 : t1.data.named.name = tn := by rw [hd]; rfl
  rw [hname1] at hput
  rw [hsame, hsis] at hsi'
  cases hsi'
  exact ⟨{ t1 with branches := bs }, ops1 ++ ops2, g2, g3, sis, runs_trans hr1 hr2, ho1.append ho2, hi2, hdone,
    hput, hb4, hv, hl, hruns, hdir, tot, htot, hd⟩

end Verif
