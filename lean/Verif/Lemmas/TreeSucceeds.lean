import Verif.Lemmas.Succeeds
import Verif.Lemmas.TreeSession
/-
Writing the columns of a tree succeeds while there is room below 2 GB.
-/
namespace Verif

/-- The bytes in the basket being filled. -/
def WBranch.pending (b : WBranch) : Nat :=
  match b.basket with
  | some bk => bk.wbuf.p.length
  | none => 0

/-- The bytes of the entries from the `k`-th on. -/
def Column.bytesFrom (k : Nat) (c : Column) : Nat := ((c.vals.drop k).flatMap (entryBytes c.ty)).length

/-- A column of which the first `n` entries can be stored. -/
structure Column.Fits (tn : Str) (n : Nat) (c : Column) : Prop where
  moderate : c.Moderate (min n c.vals.length)
  key : bkl c.name tn ≤ 3000

/-- The room for `n` bytes of entries, in sixteenths of a byte. -/
def Column.load (c : Column) (n : Nat) : Nat := if c.ty.varies then 82 * n else 19 * n

/-- After `k` rounds, with no basket stored early. -/
def AtRoom (env : Env) (tn path : Str) (f : FileW) (k : Nat) (c : Column) (b : WBranch) : Prop :=
  ∃ b0 l0 done cur, Made c b0 l0 ∧ RoomState env tn c (min k c.vals.length) b f path b0 l0 done cur

theorem AtRoom.mono {env : Env} {tn path : Str} {f f' : FileW} {k : Nat} {c : Column} {b : WBranch}
    (h : AtRoom env tn path f k c b) (hi : Inv path f') (ht : ∀ w ∈ f.trace, w ∈ f'.trace) :
    AtRoom env tn path f' k c b := by
  obtain ⟨b0, l0, done, cur, hm, h⟩ := h
  exact ⟨b0, l0, done, cur, hm, h.state.mono hi ht, h.big, h.half, h.roomy⟩

theorem Filling.pending {path tn : Str} {tab : Bool} {b0 : Branch} {l0 : Leaf} {f : FileW} {done : List Done}
    {cur : List (List Byte)} {b : WBranch} (h : Filling path tn tab b0 l0 f done cur b) :
    b.pending = cur.flatten.length := by
  unfold WBranch.pending
  rcases h.basket with ⟨hb, -, rfl⟩ | ⟨bk, hb, hc, -⟩
  · rw [hb]; rfl
  · rw [hb]; show bk.wbuf.p.length = _; rw [hc.bytes]

theorem Column.bytesFrom_succ {c : Column} {k : Nat} {v : c.ty.Val} (h : c.vals[k]? = some v) :
    c.bytesFrom k = (entryBytes c.ty v).length + c.bytesFrom (k + 1) := by
  unfold Column.bytesFrom
  obtain ⟨hlt, hv⟩ := List.getElem?_eq_some_iff.1 h
  rw [List.drop_eq_getElem_cons hlt, List.flatMap_cons, List.length_append, hv]

theorem Column.bytesFrom_end {c : Column} {k : Nat} (h : c.vals.length ≤ k) : c.bytesFrom k = 0 := by
  unfold Column.bytesFrom
  rw [List.drop_eq_nil_of_le h]
  rfl

/-- The key and the payload of a stored basket. -/
theorem BasketAt.bytes_le {path : Str} {T : List DiskWrite} {name tn : Str} {tab : Bool} {i : Int} {d : Done}
    (h : BasketAt path T name tn tab i d) : d.bytes ≤ bkl name tn + ((if tab then 5 * d.es.flatten.length else d.es.flatten.length) + 8 : Nat) := by
  have := basketPayload_length_le tab (bkl name tn) h.full
  rw [h.bytes]
  omega

theorem Column.bytesFrom_le (c : Column) (k : Nat) : c.bytesFrom (k + 1) ≤ c.bytesFrom k := by
  rcases Nat.lt_or_ge k c.vals.length with h | h
  · rw [Column.bytesFrom_succ (List.getElem?_eq_getElem h)]
    omega
  · rw [Column.bytesFrom_end (Nat.le_succ_of_le h)]
    omega

/-- A call of `write` on a branch, with room for the entries up to some point. -/
theorem AtRoom.write_before {env : Env} {tn path : Str} {f : FileW} {k : Nat} {c : Column} {b : WBranch} {B B' : Nat}
    (hB : ∀ v, c.vals[k]? = some v → (entryBytes c.ty v).length + B' ≤ B) (hB' : B' ≤ B)
    (hfit : c.Fits tn (k + 1)) (hi : Inv path f) (hb : f.Below2GB) (h : AtRoom env tn path f k c b)
    (hroom : 16 * f.header.end_ + (c.load (b.pending + B) : Nat) + 1600000 ≤ 32000000000) :
    ∃ b' m f', b.write tn f = (.ok (b', m), f') ∧ f'.Below2GB ∧ Inv path f' ∧
      (∀ w ∈ f.trace, w ∈ f'.trace) ∧ AtRoom env tn path f' (k + 1) c b' ∧ b'.basket ≠ none ∧
      (∀ x, m = some x → 0 ≤ x ∧ x ≤ B) ∧
      16 * f'.header.end_ + (c.load (b'.pending + B') : Nat) ≤
        16 * f.header.end_ + (c.load (b.pending + B) : Nat) := by
  obtain ⟨b0, l0, done, cur, hm, hst⟩ := h
  have hk : bkl c.name tn ≤ 100000000 := Int.le_trans hfit.key (by decide)
  have hmod := hfit.moderate
  have hmod' : c.Moderate (min (min k c.vals.length + 1) c.vals.length) := hmod.mono (by omega)
  have hp := hst.state.filling.pending
  obtain ⟨b', m, f', hw, hsome, hr, hnn, hcase⟩ := hst.progress hmod' hk
  have hkey := hfit.key
  have hents : ∀ v ∈ c.vals, (entryBytes c.ty v).length ≤ 90000000 := by
    intro v hv
    have := hmod.entries v hv
    split at this <;> omega
  -- the number of the entry
  have hmin : ∀ v, c.vals[min k c.vals.length]? = some v → c.vals[k]? = some v := by
    intro v hv
    obtain ⟨hlt, -⟩ := List.getElem?_eq_some_iff.1 hv
    have : min k c.vals.length = k := by omega
    rwa [this] at hv
  have hbelow : f'.Below2GB := by
    rcases hcase with rfl | ⟨v, bk, r, i, hv, hcu, hwr⟩
    · exact hb
    · refine hcu.stores_below hi hb ?_ hwr
      have h1 := hB _ (hmin v hv)
      simp only [List.flatten_append, List.flatten_cons, List.flatten_nil, List.append_nil, List.length_append]
      rw [hp] at hroom
      unfold Column.load at hroom
      split <;> (next h => simp only [h] at hroom; simp only [if_true, if_false, Bool.false_eq_true] at hroom; omega)
  obtain ⟨hstores, hres⟩ := hst.state.write hmod.ok hw hbelow.data
  obtain ⟨ops, hruns, -⟩ := hstores.runs (env := env)
  have hi' := runs_inv hi hruns
  refine ⟨b', m, f', hw, hbelow, hi', hruns.trace hi, ?_, hnn, ?_, ?_⟩
  · rcases hres with ⟨-, hn, hs⟩ | ⟨v, hv, hvn, -, done', cur', hs, hd⟩
    · have e : min (k + 1) c.vals.length = min k c.vals.length := by omega
      exact ⟨b0, l0, done, cur, hm, by rw [e]; exact hs, hst.big, hst.half, hr⟩
    · have hle := hs.le
      have e : min (k + 1) c.vals.length = min k c.vals.length + 1 := by omega
      refine ⟨b0, l0, done', cur', hm, ?_⟩
      rw [e]
      exact hst.next hmod.entries hv hs hd hr
  · intro x hx
    rcases hres with ⟨hn, -⟩ | ⟨v, hv, hvn, hmm, -⟩
    · rw [hn] at hx; cases hx
    · rw [hmm] at hx
      injection hx with hx
      have := hents v hv
      have h1 := hB _ (hmin v hvn)
      rw [← hx, asI4_nat (by unfold kStartBigFile; omega)]
      omega
  · rcases hres with ⟨-, hn, hs⟩ | ⟨v, hv, hvn, -, done', cur', hs, hd⟩
    · rcases hcase with rfl | ⟨v, _, _, _, hv, -⟩
      · rw [hp, hs.filling.pending]
        unfold Column.load
        split <;> omega
      · obtain ⟨hlt, -⟩ := List.getElem?_eq_some_iff.1 hv
        omega
    · have h1 := hB _ (hmin v hvn)
      have hp' := hs.filling.pending
      rcases hd with ⟨rfl, rfl, rfl⟩ | ⟨d, rfl, rfl, hes, hend, hd⟩
      · rw [hp', hp]
        simp only [List.flatten_append, List.flatten_cons, List.flatten_nil, List.append_nil, List.length_append]
        unfold Column.load
        split <;> omega
      · have hat := hs.filling.tables.stored done.length d (by simp)
        have hby := hat.bytes_le
        rw [hst.state.name] at hby
        have hsv := hmod.entries v hv
        unfold defaultBasketSize at hd
        have hfl : d.es.flatten.length = cur.flatten.length + (entryBytes c.ty v).length := by
          rw [hes]; simp
        rw [hp', hp, hend]
        simp only [List.flatten_nil, List.length_nil]
        unfold Column.load
        split <;> (next h => simp only [h] at hsv hby; simp only [if_true, if_false, Bool.false_eq_true] at hsv hby; omega)

/-- A call of `write` on a branch. -/
theorem AtRoom.write {env : Env} {tn path : Str} {f : FileW} {k : Nat} {c : Column} {b : WBranch}
    (hfit : c.Fits tn (k + 1)) (hi : Inv path f) (hb : f.Below2GB) (h : AtRoom env tn path f k c b)
    (hroom : 16 * f.header.end_ + (c.load (b.pending + c.bytesFrom k) : Nat) + 1600000 ≤ 32000000000) :
    ∃ b' m f', b.write tn f = (.ok (b', m), f') ∧ f'.Below2GB ∧ Inv path f' ∧
      (∀ w ∈ f.trace, w ∈ f'.trace) ∧ AtRoom env tn path f' (k + 1) c b' ∧ b'.basket ≠ none ∧
      (∀ x, m = some x → 0 ≤ x ∧ x ≤ c.bytesFrom k) ∧
      16 * f'.header.end_ + (c.load (b'.pending + c.bytesFrom (k + 1)) : Nat) ≤
        16 * f.header.end_ + (c.load (b.pending + c.bytesFrom k) : Nat) :=
  h.write_before (fun v hv => by rw [Column.bytesFrom_succ hv]; exact Nat.le_refl _) (c.bytesFrom_le k) hfit hi hb hroom

/-- The room for the bytes in the baskets being filled and those still to come. -/
def ahead (k : Nat) : List Column → List WBranch → Nat
  | c :: cols, b :: bs => c.load (b.pending + c.bytesFrom k) + ahead k cols bs
  | _, _ => 0

/-- The bytes still to come. -/
theorem coming_le {α : Column → WBranch → Prop} {k : Nat} : ∀ {cols : List Column} {bs : List WBranch}, All2 α cols bs →
    19 * (cols.map (Column.bytesFrom k)).sum ≤ ahead k cols bs
  | [], bs, h => by cases h.nil_left; exact Nat.le_refl _
  | c :: cols, bs, h => by
    obtain ⟨b, bs, rfl, h1, h2⟩ := h.cons_left
    have := coming_le (k := k) h2
    simp only [List.map_cons, List.sum_cons, ahead]
    unfold Column.load
    split <;> omega

/-- One round. -/
theorem writeRound_runs {env : Env} {tn path : Str} {cb k : Nat} : ∀ {cols : List Column} {bs : List WBranch}
    {f : FileW} {tot : Int}, (∀ c ∈ cols, c.Fits tn (k + 1)) → Inv path f → f.Below2GB →
    All2 (AtRoom env tn path f k) cols bs → 0 ≤ tot →
    tot + ((cols.map (Column.bytesFrom k)).sum : Nat) ≤ 2000000000 →
    16 * f.header.end_ + (ahead k cols bs : Nat) + 1600000 ≤ 32000000000 →
    ∃ bs' done tot' log f', writeRound tn cb bs tot f = (.ok (bs', done, tot', log), f') ∧ f'.Below2GB ∧
      Inv path f' ∧ (∀ w ∈ f.trace, w ∈ f'.trace) ∧ All2 (AtRoom env tn path f' (k + 1)) cols bs' ∧
      (∀ b ∈ bs', b.basket ≠ none) ∧
      16 * f'.header.end_ + (ahead (k + 1) cols bs' : Nat) ≤ 16 * f.header.end_ + (ahead k cols bs : Nat)
  | [], bs, f, tot, _, hi, hb, hall, _, _, _ => by
    cases hall.nil_left
    exact ⟨[], [], tot, [], f, rfl, hb, hi, fun w hw => hw, trivial, (fun b hb => by cases hb), Int.le_refl _⟩
  | c :: cols, bs, f, tot, hfit, hi, hb, hall, h0, htot, hroom => by
    obtain ⟨b, bs, rfl, h1, h2⟩ := hall.cons_left
    simp only [ahead, List.map_cons, List.sum_cons] at hroom htot
    obtain ⟨b', m, f1, hw, hb1, hi1, ht1, hr1, hn1, hm, hend1⟩ := h1.write (hfit c (by simp)) hi hb (by omega)
    have hadd : ∃ tot1, addBytes tot m f1 = (.ok tot1, f1) ∧ 0 ≤ tot1 ∧ tot1 ≤ tot + c.bytesFrom k := by
      cases m with
      | none => exact ⟨tot, rfl, h0, by omega⟩
      | some x =>
        obtain ⟨x0, x1⟩ := hm x rfl
        exact ⟨tot + x, Fs.i32_of (inI4_abs (by omega) (by omega)), by omega, by omega⟩
    obtain ⟨tot1, ha, ha0, ha1⟩ := hadd
    obtain ⟨bs', done, tot', log, f2, hr, hb2, hi2, ht2, hr2, hn2, hend2⟩ := writeRound_runs (cb := cb)
      (tot := tot1) (fun c hc => hfit c (by simp [hc])) hi1 hb1 (h2.imp fun c b hcb => hcb.mono hi1 ht1)
      ha0 (by omega) (by omega)
    refine ⟨b' :: bs', m.isNone :: done, tot', calls cb (.branch b.branch.name) ++ log, f2, ?_, hb2, hi2,
      fun w hw => ht2 w (ht1 w hw), ⟨hr1.mono hi2 ht2, hr2⟩, ?_, ?_⟩
    · unfold writeRound
      refine (Fs.bind_of_ok hw).trans ((Fs.bind_of_ok ha).trans ((Fs.bind_of_ok hr).trans rfl))
    · intro x hx
      rcases List.mem_cons.1 hx with rfl | hx
      · exact hn1
      · exact hn2 x hx
    · simp only [ahead]
      omega

/-- The rounds up to the end. -/
theorem writeRounds_runs {env : Env} {path : Str} {cols : List Column} : ∀ {fuel k : Nat} {t : WTree} {f : FileW},
    (∀ c ∈ cols, ∀ n, c.Fits t.data.named.name n) → Inv path f → f.Below2GB →
    All2 (Fed k) cols t.branches → All2 (AtRoom env t.data.named.name path f k) cols t.branches →
    k ≤ longest cols → longest cols < fuel + k →
    16 * f.header.end_ + (ahead k cols t.branches : Nat) + 1600000 ≤ 32000000000 → 0 ≤ f.header.end_ →
    ∃ t' f', writeRounds fuel (doneBefore k cols) t f = (.ok t', f') ∧ f'.Below2GB ∧ Inv path f' ∧
      All2 (AtRoom env t.data.named.name path f' (longest cols + 1)) cols t'.branches ∧
      (∀ b ∈ t'.branches, b.basket ≠ none) ∧
      16 * f'.header.end_ + (ahead (longest cols + 1) cols t'.branches : Nat) ≤
        16 * f.header.end_ + (ahead k cols t.branches : Nat)
  | 0, k, t, f, _, _, _, _, _, hk, hfuel, _, _ => by omega
  | fuel + 1, k, t, f, hfit, hi, hb, hfed, hst, hk, hfuel, hroom, hend0 => by
    obtain ⟨bs, done, tot, log, f1, h0, hb1, hi1, ht1, hst1, hn1, hend1⟩ :=
      writeRound_runs (cb := t.callbacks) (tot := 0) (fun c hc => hfit c hc _) hi hb hst (by decide)
        (by have := coming_le (k := k) hst; omega) hroom
    obtain ⟨r1, r2, -⟩ := writeRound_fed hfed h0
    have hall := all_doneBefore (k := k) (cols := cols)
    unfold writeRounds
    rw [Fs.bind_of_ok h0]
    simp only [r2, doneBefore_now]
    split
    · next hd =>
      have hk' : longest cols = k := Nat.le_antisymm (hall.1 hd) hk
      exact ⟨_, f1, rfl, hb1, hi1, by rw [hk']; exact hst1, hn1, by rw [hk']; exact hend1⟩
    · next hd =>
      have hk' : k < longest cols := Nat.lt_of_not_le fun hle => hd (hall.2 hle)
      have hend' : 0 ≤ f1.header.end_ := by
        have := hi1.lo
        have := dirPos_ge path
        omega
      obtain ⟨t', f2, h2, hb2, hi2, hst2, hn2, hend2⟩ := writeRounds_runs (fuel := fuel) (k := k + 1)
        (t := { t with branches := bs
                       data := { t.data with totBytes := t.data.totBytes + tot
                                             entries := t.data.entries + 1 }
                       log := t.log ++ calls t.callbacks .before ++ log })
        hfit hi1 hb1 r1 hst1 hk' (by omega) (Int.le_trans (Int.add_le_add_right hend1 _) hroom) hend'
      exact ⟨t', f2, h2, hb2, hi2, hst2, hn2, Int.le_trans hend2 hend1⟩

/-- After the last flush, with the number of baskets bounded. -/
def DoneRoom (tn path : Str) (f : FileW) (c : Column) (b : WBranch) : Prop :=
  ∃ b0 l0 done, Made c b0 l0 ∧ ColumnDone tn c b f path b0 l0 done ∧
    16384 * done.length ≤ c.bytesFrom 0 + 16384

theorem DoneRoom.mono {tn path : Str} {f f' : FileW} {c : Column} {b : WBranch}
    (h : DoneRoom tn path f c b) (hi : Inv path f') (ht : ∀ w ∈ f.trace, w ∈ f'.trace) :
    DoneRoom tn path f' c b := by
  obtain ⟨b0, l0, done, hm, h, hd⟩ := h
  exact ⟨b0, l0, done, hm, h.mono hi ht, hd⟩

/-- The last flush of a branch. -/
theorem AtRoom.flush {env : Env} {tn path : Str} {f : FileW} {k : Nat} {c : Column} {b : WBranch}
    (hfit : c.Fits tn k) (hi : Inv path f) (hb : f.Below2GB) (hk : c.vals.length ≤ k)
    (h : AtRoom env tn path f k c b) (hn : b.basket ≠ none)
    (hroom : 16 * f.header.end_ + (c.load b.pending : Nat) + 48128 ≤ 32000000000) :
    ∃ b' f', b.flush f = (.ok b', f') ∧ f'.Below2GB ∧ Inv path f' ∧
      (∀ w ∈ f.trace, w ∈ f'.trace) ∧ DoneRoom tn path f' c b' ∧
      16 * f'.header.end_ ≤ 16 * f.header.end_ + (c.load b.pending : Nat) + 48128 := by
  obtain ⟨b0, l0, done, cur, hm, hst⟩ := h
  have e : min k c.vals.length = c.vals.length := by omega
  rw [e] at hst
  have hp := hst.state.filling.pending
  have hsm := hst.state.filling.small
  have hkey := hfit.key
  rcases hst.state.filling.basket with ⟨hb0, -⟩ | ⟨bk, hbk, hc, hfew⟩
  · exact absurd hb0 hn
  obtain ⟨⟨bk', n', m'⟩, f', hw⟩ := hc.stores hi (by rw [hst.state.name]; omega) (by omega)
  have hbelow : f'.Below2GB := by
    refine hc.stores_below hi hb ?_ hw
    rw [hst.state.name]
    rw [hp] at hroom
    unfold Column.load at hroom
    split <;> (next h => simp only [h] at hroom; simp only [if_true, if_false, Bool.false_eq_true] at hroom; omega)
  have hfl : ∃ b', b.flush f = (.ok b', f') := by
    unfold WBranch.flush
    rw [hbk, Fs.bind_of_ok (show Fs.orPanic (some bk) f = (.ok bk, f) from rfl), Fs.bind_of_ok hw]
    exact ⟨_, rfl⟩
  obtain ⟨b', hfl⟩ := hfl
  obtain ⟨hi', ht', -, d, htab, hes, hend, htk⟩ := hst.state.flush hfl hbelow.data
  rw [List.take_length] at htk
  refine ⟨b', f', hfl, hbelow, hi', ht', ⟨b0, l0, done ++ [d], hm,
    ⟨hst.state.fresh, hst.state.name, hi', htab, htk, by simp⟩, ?_⟩, ?_⟩
  · have h1 := done_bytes hst.half
    have h2 := congrArg (fun l => l.flatten.length) hst.state.taken
    rw [List.take_length] at h2
    simp only [List.flatten_append, List.length_append] at h2
    have h3 : (c.vals.map (entryBytes c.ty)).flatten.length = c.bytesFrom 0 := by
      unfold Column.bytesFrom
      rw [List.drop_zero, List.flatMap_def]
    simp only [List.length_append, List.length_singleton]
    omega
  · have hby := (htab.stored done.length d (by simp)).bytes_le
    rw [hst.state.name, hes] at hby
    rw [hend, hp]
    unfold Column.load
    split <;> (next h => simp only [h] at hby; simp only [if_true, if_false, Bool.false_eq_true] at hby; omega)

/-- The last flush of every branch. -/
theorem flushAll_runs {env : Env} {tn path : Str} {k : Nat} : ∀ {cols : List Column} {bs : List WBranch}
    {f : FileW}, (∀ c ∈ cols, c.Fits tn k) → Inv path f → f.Below2GB → (∀ c ∈ cols, c.vals.length ≤ k) →
    All2 (AtRoom env tn path f k) cols bs → (∀ b ∈ bs, b.basket ≠ none) →
    16 * f.header.end_ + (ahead k cols bs + 48128 * cols.length : Nat) ≤ 32000000000 →
    ∃ bs' f', flushAll bs f = (.ok bs', f') ∧ f'.Below2GB ∧ Inv path f' ∧ (∀ w ∈ f.trace, w ∈ f'.trace) ∧
      All2 (DoneRoom tn path f') cols bs' ∧
      16 * f'.header.end_ ≤ 16 * f.header.end_ + (ahead k cols bs + 48128 * cols.length : Nat)
  | [], bs, f, _, hi, hb, _, hall, _, _ => by
    cases hall.nil_left
    exact ⟨[], f, rfl, hb, hi, fun w hw => hw, trivial,
      Int.le_add_of_nonneg_right (Int.natCast_nonneg _)⟩
  | c :: cols, bs, f, hfit, hi, hb, hk, hall, hn, hroom => by
    obtain ⟨b, bs, rfl, h1, h2⟩ := hall.cons_left
    simp only [ahead, List.length_cons] at hroom
    have hz := Column.bytesFrom_end (hk c (by simp))
    rw [hz, Nat.add_zero] at hroom
    obtain ⟨b', f1, hw, hb1, hi1, ht1, hd1, hend1⟩ := h1.flush (hfit c (by simp)) hi hb (hk c (by simp))
      (hn b (by simp)) (by omega)
    obtain ⟨bs', f2, hr, hb2, hi2, ht2, hd2, hend2⟩ := flushAll_runs (fun c hc => hfit c (by simp [hc])) hi1 hb1
      (fun c hc => hk c (by simp [hc])) (h2.imp fun c b hcb => hcb.mono hi1 ht1)
      (fun b hb => hn b (by simp [hb])) (by omega)
    refine ⟨b' :: bs', f2, ?_, hb2, hi2, fun w hw => ht2 w (ht1 w hw), ⟨hd1.mono hi2 ht2, hd2⟩, ?_⟩
    · unfold flushAll
      rw [Fs.bind_of_ok hw, Fs.bind_of_ok hr]
      rfl
    · simp only [ahead, List.length_cons]
      rw [hz, Nat.add_zero]
      omega

end Verif
