import Verif.Lemmas.Baskets
/-
Helper lemmas: when a basket always has room for the position of one more entry, and when storing it
succeeds.
-/
namespace Verif

theorem Fs.bind_of_error {α β} {m : Fs α} {k : α → Fs β} {f f1 : FileW} {e : Fault} (h : m f = (.error e, f1)) :
    (m >>= k) f = (.error e, f1) := by
  show (match m f with | (.ok a, f') => k a f' | (.error e, f') => (.error e, f')) = _
  rw [h]

/-- The table of positions and the number it is compared with. -/
def Basket.Roomy (b : Basket) : Prop :=
  b.offsets = [] ∨ 1000 ≤ b.offsets.length ∧ (b.offsets.length : Int) ≤ b.nevSize ∧
    b.nevSize ≤ b.offsets.length + 1 ∧ b.nevBuf ≤ b.offsets.length

theorem WBasket.update_roomy {bk : WBasket} (h : bk.basket.Roomy) (h0 : 0 ≤ bk.basket.nevBuf)
    (offset : Int) : ∃ bk', bk.update offset = .ok bk' ∧ bk'.basket.Roomy := by
  unfold WBasket.update
  dsimp only
  split
  · next ho => exact ⟨_, rfl, .inl ho⟩
  · next ho =>
    rcases h with h | ⟨h1, h2, h3, h4⟩
    · exact absurd h ho
    · unfold Basket.grow
      split
      · have hn : 10 < 2 * bk.basket.nevSize := by omega
        simp only [if_pos hn, List.length_append, List.length_replicate]
        rw [if_neg (by omega)]
        refine ⟨_, rfl, .inr ?_⟩
        simp only [List.length_set, List.length_append, List.length_replicate]
        omega
      · rw [if_neg (by omega)]
        refine ⟨_, rfl, .inr ?_⟩
        simp only [List.length_set]
        omega

/-- The basket with one more entry. -/
theorem WBranch.fill_roomy {b : WBranch} {bk : WBasket} {item : Wr Nat} {rest : List (Option (Wr Nat))}
    {l0 l : Leaf} {bs : List Byte} (hl : b.branch.data.leaves = [l]) (h0 : l0.Writable)
    (hlike : LeafLike l0 l) (hi : Writes item bs bs.length) (hwf : bk.wbuf.WF) (hr : bk.basket.Roomy)
    (hn : 0 ≤ bk.basket.nevBuf) (hs : bk.basket.offsets = [] ∨ (l0.entryOf bs).length ≤ 1001)
    (hs' : (l0.entryOf bs).length ≤ 90000000) :
    ∃ b' bk' m, b.fill bk item rest = .ok (b', bk', m) ∧ bk'.basket.Roomy := by
  obtain ⟨bk1, hu, hr1⟩ := WBasket.update_roomy hr hn bk.wbuf.p.length
  have hw1 : bk1.wbuf = bk.wbuf := by
    unfold WBasket.update at hu
    dsimp only at hu
    split at hu
    · cases hu; rfl
    · split at hu
      · cases hu
      · cases hu; rfl
  obtain ⟨l', hw, -⟩ := Leaf.writeToBuffer_ok h0 hlike hi (hw1 ▸ hwf : bk1.wbuf.WF)
  unfold WBranch.fill
  rw [hl]
  dsimp only
  rw [Res.bind_ok hu, Res.bind_ok hw]
  refine ⟨_, _, _, rfl, ?_⟩
  have e : asI 4 (((bk1.wbuf.app (l0.entryOf bs)).p.length : Int) - bk.wbuf.p.length) =
      ((l0.entryOf bs).length : Int) := by
    rw [hw1, WBuffer.app_p, List.length_append]
    rw [show (((bk.wbuf.p.length + (l0.entryOf bs).length : Nat) : Int) - bk.wbuf.p.length) =
      ((l0.entryOf bs).length : Int) by omega]
    exact asI_of (by decide) (inI4_le (by omega) (by omega))
  rcases hr1 with hr1 | ⟨h1, h2, h3, h4⟩
  · exact .inl hr1
  · refine .inr ?_
    have hs2 : (l0.entryOf bs).length ≤ 1001 := by
      refine hs.resolve_left fun h0 => ?_
      unfold WBasket.update at hu
      rw [if_pos h0] at hu
      cases hu
      simp only [h0, List.length_nil] at h1
      omega
    simp only [e]
    split <;> omega

theorem WBranch.createNewBasket_ok {b : WBranch} {tn : Str} {f : FileW} {k : Nat}
    (h : b.branch.data.writeBasket = k) (hk : k ≤ 32766) (ho : b.branch.data.entryOffsetLen = 0 ∨
      b.branch.data.entryOffsetLen = 1000) :
    ∃ b' bk, b.createNewBasket tn f = .ok (b', bk) ∧ bk.basket.Roomy := by
  unfold WBranch.createNewBasket
  simp only [h]
  rw [asI_of (by decide) (inI2_nat (by omega)), if_neg (by
    rw [Classical.not_not]; exact inI2_nat (n := k + 1) (by omega))]
  refine ⟨_, _, rfl, ?_⟩
  unfold Basket.newFromBranch Basket.Roomy
  dsimp only
  rcases ho with ho | ho <;> rw [ho]
  · exact .inl rfl
  · refine .inr ?_
    simp only [List.length_replicate]
    decide

theorem Fs.i32_of {x : Int} {f : FileW} (h : InI 4 x) : Fs.i32 x f = (.ok x, f) := Fs.ok_i32.2 ⟨h, rfl, rfl⟩

theorem inI4_abs {n : Int} (h : -2000000000 ≤ n) (h' : n ≤ 2000000000) : InI 4 n := by
  have : ((256 ^ 4 : Nat) : Int) = 4294967296 := rfl
  unfold InI
  rw [this]
  omega

/-- Storing a basket of moderate size succeeds. -/
theorem WBasket.writeToFile_runs {bk : WBasket} {f : FileW} (hf : f.Good)
    (hk : f.keyLenFor bk.basket.key.name bk.basket.key.title (b! "TBasket") ≤ 100000000)
    (hkl : bk.basket.key.keyLen = f.keyLenFor bk.basket.key.name bk.basket.key.title (b! "TBasket"))
    (hp : bk.wbuf.p.length ≤ 100000000) (hw : bk.wbuf.WF) {n : Nat} (hn : bk.basket.nevBuf = n)
    (hn2 : n ≤ 100000000) (ho : bk.basket.offsets = [] ∨ n ≤ bk.basket.offsets.length) :
    ∃ r f', bk.writeToFile f = (.ok r, f') := by
  obtain ⟨⟨key, nevBuf, last0, nevSize, bufSize, offsets, rvers⟩, wbuf⟩ := bk
  dsimp only at *
  have hge := (keyLenFor_ge key.name key.title (b! "TBasket") f.dir.isBig f.isBig).1
  have hge : 26 ≤ f.keyLenFor key.name key.title (b! "TBasket") := hge
  have hpa : asI 4 (wbuf.p.length : Int) = wbuf.p.length := asI_of (by decide) (inI4_le (by omega) (by omega))
  unfold WBasket.writeToFile
  rw [Fs.bind_of_ok (show Fs.get f = (.ok f, f) from rfl)]
  simp only [hf.notBig, Bool.and_false, Bool.false_eq_true, if_false, hpa]
  rw [Fs.bind_of_ok (Fs.i32_of (inI4_abs (by omega) (by omega)))]
  have ha : ∃ w, Basket.appendTable ⟨key, nevBuf, key.keyLen + wbuf.p.length, nevSize, bufSize, offsets, rvers⟩ wbuf f =
      (.ok w, f) ∧ w.p.length ≤ 600000000 := by
    unfold Basket.appendTable
    by_cases he : offsets = []
    · subst he
      exact ⟨wbuf, rfl, by omega⟩
    · have ho' : offsets.isEmpty = false := by
        cases offsets with
        | nil => exact absurd rfl he
        | cons => rfl
      have ho2 : n ≤ offsets.length := ho.resolve_left he
      simp only [ho', Bool.false_eq_true, if_false]
      rw [if_neg (by omega), Fs.bind_of_ok (Fs.i32_of (inI4_abs (by omega) (by omega)))]
      have ht : Writes (do
          Wr.i32 (nevBuf + 1)
          Wr.each Wr.i32 (offsets.take nevBuf.toNat)
          Wr.i32 0) (encI 4 (nevBuf + 1) ++ ((offsets.take nevBuf.toNat).flatMap (encI 4) ++ encI 4 0)) () :=
        Writes.bind (Writes.bytes _) (Writes.bind (Writes.each fun a _ => Writes.bytes _) (Writes.bytes _))
      rw [ht wbuf hw]
      refine ⟨_, rfl, ?_⟩
      have hl : ∀ l : List Int, (l.flatMap (encI 4)).length = 4 * l.length := by
        intro l
        induction l with
        | nil => rfl
        | cons a l ih =>
          have : (encI 4 a).length = 4 := by simp [encI]
          rw [List.flatMap_cons, List.length_append, ih, this, List.length_cons]
          omega
      have h4 : ∀ a, (encI 4 a).length = 4 := fun a => by simp [encI]
      simp only [WBuffer.app_p, List.length_append, h4, hl, List.length_take]
      omega
  obtain ⟨w, ha, hwl⟩ := ha
  rw [Fs.bind_of_ok ha]
  have hwa : asI 4 (w.p.length : Int) = w.p.length := asI_of (by decide) (inI4_le (by omega) (by omega))
  have hkey : ∃ f2, Key.newFromBuffer key.name key.title (b! "TBasket") key.cycle w.p f =
      (.ok (Key.at key.name key.title (b! "TBasket") key.cycle w.p.length
        (f.keyLenFor key.name key.title (b! "TBasket")) f.header.end_ f.dir.seekDir f.isBig w.p), f2) := by
    unfold Key.newFromBuffer
    rw [Fs.bind_of_ok (show Fs.get f = (.ok f, f) from rfl)]
    rw [Fs.bind_of_ok (Fs.i32_of (inI4_abs (by omega) (by omega)))]
    simp only [hwa]
    rw [Fs.bind_of_ok (Fs.i32_of (inI4_abs (by omega) (by omega))), hf.comp, compressPayload_eq,
      Fs.bind_of_ok (show Fs.lift (Except.ok w.p) f = (.ok w.p, f) from rfl)]
    simp only [hwa]
    rw [Fs.bind_of_ok (Fs.i32_of (inI4_abs (by omega) (by omega))), Fs.bind_of_ok (Fs.setEnd_eq hf.span _)]
    exact ⟨_, rfl⟩
  obtain ⟨f2, hkey⟩ := hkey
  rw [Fs.bind_of_ok hkey]
  simp only [Key.at]
  rw [Fs.bind_of_ok (Fs.i32_of (inI4_abs (by omega) (by omega)))]
  have hwr : (Key.at key.name key.title (b! "TBasket") key.cycle w.p.length
      (f.keyLenFor key.name key.title (b! "TBasket")) f.header.end_ f.dir.seekDir f.isBig w.p).Writable :=
    Key.at_writable (show 0 ≤ f.keyLenFor _ _ _ + _ by omega) hf.lo hf.hi
      (inI4_abs (by omega) (show f.keyLenFor _ _ _ ≤ _ by omega))
  simp only [Key.at] at hwr
  have hm := Basket.writes (b := ⟨_, nevBuf, key.keyLen + wbuf.p.length, nevSize, bufSize, offsets, rvers⟩) hwr
    _ (WBuffer.new_WF (f.keyLenFor key.name key.title (b! "TBasket")).toNat)
  have hm2 := Fs.ok_marshal.2 ⟨⟨_, _, hm, rfl⟩, rfl (a := f2)⟩
  rw [Fs.bind_of_ok hm2]
  have hlo := hf.lo
  rw [Fs.bind_of_ok (Fs.ok_writeAt (u := ()).2 ⟨hlo, rfl⟩),
    Fs.bind_of_ok (Fs.ok_writeAt (u := ()).2 ⟨by omega, rfl⟩)]
  exact ⟨_, _, rfl⟩

section
variable {path tn : Str} {tab : Bool} {b0 : Branch} {l0 : Leaf}

/-- The basket being filled can be stored. -/
theorem Current.stores {f : FileW} (hi : Inv path f) {name : Str} {cycle : Int} {cur : List (List Byte)}
    {bk : WBasket} (hc : Current name tn tab cycle cur bk) (hk : bkl name tn ≤ 100000000)
    (hs : cur.flatten.length ≤ 100000000) : ∃ r f', bk.writeToFile f = (.ok r, f') := by
  have hlen := length_le_flatten hc.full
  refine WBasket.writeToFile_runs hi.good (n := cur.length) ?_ ?_ ?_ hc.wf hc.nev (by omega) ?_
  · rw [hi.keyLenFor, hc.kname, hc.title]; exact hk
  · rw [hi.keyLenFor, hc.kname, hc.title]; exact hc.keyLen
  · rw [hc.bytes]; exact hs
  · cases htab : tab with
    | false => exact .inl (hc.plain htab)
    | true =>
      have := congrArg List.length (hc.table htab).2
      simp only [List.length_take, List.length_map, starts_length] at this
      exact .inr (by omega)

theorem Tables.offsetLen (h0 : FreshBranch tab b0 l0) {T : List DiskWrite} {done : List Done} {n : Nat}
    {b : Branch} (ht : Tables path tn tab T b0 l0 done n b) :
    b.data.entryOffsetLen = 0 ∨ b.data.entryOffsetLen = 1000 := by
  rw [ht.data]
  cases tab with
  | false => exact .inl h0.offs
  | true => exact .inr h0.offs

/-- Writing one more entry succeeds. -/
theorem Filling.progress (h0 : FreshBranch tab b0 l0) {f : FileW} {done : List Done}
    {cur : List (List Byte)} {b : WBranch} {item : Wr Nat} {bs : List Byte}
    {rest : List (Option (Wr Nat))} (h : Filling path tn tab b0 l0 f done cur b)
    (hr : ∀ bk, b.basket = some bk → bk.basket.Roomy)
    (hit : b.items = some item :: rest) (hi : Writes item bs bs.length) (hne : bs ≠ [])
    (hs : (l0.entryOf bs).length ≤ if tab then 1001 else 90000000) (hk : bkl b0.name tn ≤ 100000000)
    (hfew : 32768 ≤ cur.flatten.length + 2 * (l0.entryOf bs).length → done.length ≤ 32765) :
    ∃ b' m f', b.write tn f = (.ok (b', m), f') ∧ (∀ bk, b'.basket = some bk → bk.basket.Roomy) ∧
      b'.basket ≠ Option.none ∧ (f' = f ∨ ∃ bk r i, Current b0.name tn tab i (cur ++ [l0.entryOf bs]) bk ∧
        bk.writeToFile f = (.ok r, f')) := by
  have h1 : ∃ b1 bk, b.currentBasket tn f = (.ok (b1, bk), f) ∧ bk.basket.Roomy := by
    unfold WBranch.currentBasket
    rcases h.basket with ⟨hb, rfl, rfl⟩ | ⟨bk0, hb, hc, hf⟩
    · rw [hb]
      dsimp only
      rw [Fs.bind_of_ok (show Fs.get f = (.ok f, f) from rfl)]
      obtain ⟨b1, bk, h1, h2⟩ := WBranch.createNewBasket_ok (b := b) (tn := tn) (f := f) (k := 0)
        (by rw [h.tables.data]; rfl) (by omega) (h.tables.offsetLen h0)
      rw [h1, Fs.bind_of_ok (show Fs.lift (Except.ok (b1, bk)) f = (.ok (b1, bk), f) from rfl)]
      exact ⟨_, _, rfl, h2⟩
    · rw [hb]
      exact ⟨_, _, rfl, hr _ hb⟩
  obtain ⟨b1, bk, h1, hr1⟩ := h1
  obtain ⟨-, hit1, hb1, hfl, hc, -⟩ := h.currentBasket h0 h1
  obtain ⟨l, hl, hlike⟩ := hfl.tables.leaf
  have hs' : (l0.entryOf bs).length ≤ 90000000 := by
    split at hs <;> omega
  obtain ⟨b2, bk2, n, h2, hr2⟩ := WBranch.fill_roomy (rest := rest) hl h0.writable hlike hi hc.wf hr1
    (by rw [hc.nev]; omega) (by
      cases htab : tab with
      | false => exact .inl (hc.plain htab)
      | true => rw [htab] at hs; exact .inr hs) hs'
  obtain ⟨hc2, hit2, hb2, hn, ht2⟩ := Current.fill h0 hfl.tables hc hfl.small hi hne h2
  have hn' : n = (l0.entryOf bs).length := by
    rw [hn]; exact asI_of (by decide) (inI4_le (by omega) (by omega))
  have ht3 := ht2 (by simp only [kStartBigFile]; omega)
  unfold WBranch.write
  rw [Fs.bind_of_ok h1]
  dsimp only
  rw [hit1, hit]
  dsimp only
  rw [h2, Fs.bind_of_ok (show Fs.lift (Except.ok (b2, bk2, n)) f = (.ok (b2, bk2, n), f) from rfl)]
  unfold WBranch.spill
  dsimp only
  rw [if_neg (by omega)]
  split
  · next hfull =>
    have hsm := h.small
    have hfew : done.length ≤ 32765 := by
      refine hfew ?_
      have e1 : b2.branch.data.basketSize = defaultBasketSize := by rw [ht3.data]; exact h0.size
      have e2 : bk2.wbuf.p.length = cur.flatten.length + (l0.entryOf bs).length := by
        rw [hc2.bytes]; simp
      rw [e1, e2, hn'] at hfull
      unfold defaultBasketSize at hfull
      omega
    obtain ⟨⟨bk3, x, y⟩, f3, h3⟩ := hc2.stores hfl.inv hk (by
      simp only [List.flatten_append, List.flatten_cons, List.flatten_nil, List.append_nil,
        List.length_append]
      omega)
    have hfl2 : ∃ b3, b2.flush f = (.ok b3, f3) ∧ b3.branch.data.writeBasket = (done.length + 1 : Nat) ∧
        (b3.branch.data.entryOffsetLen = 0 ∨ b3.branch.data.entryOffsetLen = 1000) := by
      unfold WBranch.flush
      rw [hb2, Fs.bind_of_ok (show Fs.orPanic (some bk2) f = (.ok bk2, f) from rfl), Fs.bind_of_ok h3]
      refine ⟨_, rfl, ?_, ht3.offsetLen h0⟩
      show b2.branch.data.writeBasket + 1 = _
      rw [ht3.data]
      rfl
    obtain ⟨b3, h4, h5, h6⟩ := hfl2
    obtain ⟨b4, bk4, h7, h8⟩ := WBranch.createNewBasket_ok (b := b3) (tn := tn) (f := f3) h5 (by omega) h6
    rw [Fs.bind_of_ok (Fs.bind_of_ok h4 |>.trans <| (Fs.bind_of_ok (show Fs.get f3 = (.ok f3, f3) from rfl)).trans <| by
      rw [h7, Fs.bind_of_ok (show Fs.lift (Except.ok (b4, bk4)) f3 = (.ok (b4, bk4), f3) from rfl)]; rfl)]
    refine ⟨_, _, _, rfl, ?_, (fun h => by cases h), .inr ⟨bk2, _, _, hc2, h3⟩⟩
    intro bk hbk
    injection hbk with hbk
    exact hbk ▸ h8
  · refine ⟨_, _, _, rfl, ?_, (fun h => by rw [hb2] at h; cases h), .inl rfl⟩
    intro bk hbk
    rw [hb2] at hbk
    injection hbk with hbk
    exact hbk ▸ hr2

/-- The entry that fills the 32767th basket. -/
theorem Filling.overflow (h0 : FreshBranch tab b0 l0) {f : FileW} {done : List Done}
    {cur : List (List Byte)} {b : WBranch} {item : Wr Nat} {bs : List Byte}
    {rest : List (Option (Wr Nat))} (h : Filling path tn tab b0 l0 f done cur b)
    (hr : ∀ bk, b.basket = some bk → bk.basket.Roomy)
    (hit : b.items = some item :: rest) (hi : Writes item bs bs.length) (hne : bs ≠ [])
    (hs : (l0.entryOf bs).length ≤ if tab then 1001 else 90000000) (hk : bkl b0.name tn ≤ 100000000)
    (hfull : 32768 ≤ cur.flatten.length + 2 * (l0.entryOf bs).length) (hdone : done.length = 32766) :
    ∃ f', b.write tn f = (.error .panic, f') := by
  rcases h.basket with ⟨hb, rfl, rfl⟩ | ⟨bk, hb, -, -⟩
  · cases hdone
  have h1 : b.currentBasket tn f = (.ok (b, bk), f) := by
    unfold WBranch.currentBasket
    rw [hb]
    rfl
  obtain ⟨-, -, -, hfl, hc, -⟩ := h.currentBasket h0 h1
  obtain ⟨l, hl, hlike⟩ := hfl.tables.leaf
  have hs' : (l0.entryOf bs).length ≤ 90000000 := by
    split at hs <;> omega
  obtain ⟨b2, bk2, n, h2, hr2⟩ := WBranch.fill_roomy (rest := rest) hl h0.writable hlike hi hc.wf (hr _ hb)
    (by rw [hc.nev]; omega) (by
      cases htab : tab with
      | false => exact .inl (hc.plain htab)
      | true => rw [htab] at hs; exact .inr hs) hs'
  obtain ⟨hc2, hit2, hb2, hn, ht2⟩ := Current.fill h0 hfl.tables hc hfl.small hi hne h2
  have hn' : n = (l0.entryOf bs).length := by
    rw [hn]; exact asI_of (by decide) (inI4_le (by omega) (by omega))
  have ht3 := ht2 (by simp only [kStartBigFile]; omega)
  have hsm := h.small
  obtain ⟨⟨bk3, x, y⟩, f3, h3⟩ := hc2.stores hfl.inv hk (by
    simp only [List.flatten_append, List.flatten_cons, List.flatten_nil, List.append_nil,
      List.length_append]
    omega)
  have e1 : b2.branch.data.basketSize = defaultBasketSize := by rw [ht3.data]; exact h0.size
  have e2 : bk2.wbuf.p.length = cur.flatten.length + (l0.entryOf bs).length := by
    rw [hc2.bytes]; simp
  have hfl2 : ∃ b3, b2.flush f = (.ok b3, f3) ∧ b3.branch.data.writeBasket = 32767 := by
    unfold WBranch.flush
    rw [hb2, Fs.bind_of_ok (show Fs.orPanic (some bk2) f = (.ok bk2, f) from rfl), Fs.bind_of_ok h3]
    refine ⟨_, rfl, ?_⟩
    show b2.branch.data.writeBasket + 1 = _
    rw [ht3.data]
    show (done.length : Int) + 1 = _
    omega
  obtain ⟨b3, h4, h5⟩ := hfl2
  have h6 : b3.createNewBasket tn f3 = .error .panic := by
    unfold WBranch.createNewBasket
    simp only [h5]
    rw [if_pos (by decide)]
  refine ⟨f3, ?_⟩
  unfold WBranch.write
  rw [Fs.bind_of_ok h1]
  dsimp only
  rw [hit]
  dsimp only
  rw [h2, Fs.bind_of_ok (show Fs.lift (Except.ok (b2, bk2, n)) f = (.ok (b2, bk2, n), f) from rfl)]
  unfold WBranch.spill
  dsimp only
  rw [if_neg (by omega), if_pos (by rw [e1, e2, hn']; unfold defaultBasketSize; omega)]
  have h7 : (do
      let b ← b2.flush
      let f ← Fs.get
      let (b, bk) ← Fs.lift (b.createNewBasket tn f)
      pure { b with basket := some bk } : Fs WBranch) f = (.error .panic, f3) := by
    rw [Fs.bind_of_ok h4, Fs.bind_of_ok (show Fs.get f3 = (.ok f3, f3) from rfl), h6]
    rfl
  exact Fs.bind_of_error h7

/-- Nothing left. -/
theorem Filling.progress_none (h0 : FreshBranch tab b0 l0) {f : FileW} {done : List Done}
    {cur : List (List Byte)} {b : WBranch} (h : Filling path tn tab b0 l0 f done cur b)
    (hr : ∀ bk, b.basket = some bk → bk.basket.Roomy) (hit : b.items = []) :
    ∃ b', b.write tn f = (.ok (b', Option.none), f) ∧ (∀ bk, b'.basket = some bk → bk.basket.Roomy) ∧
      b'.basket ≠ Option.none := by
  have h1 : ∃ b1 bk, b.currentBasket tn f = (.ok (b1, bk), f) ∧ bk.basket.Roomy := by
    unfold WBranch.currentBasket
    rcases h.basket with ⟨hb, rfl, rfl⟩ | ⟨bk0, hb, hc, hf⟩
    · rw [hb]
      dsimp only
      rw [Fs.bind_of_ok (show Fs.get f = (.ok f, f) from rfl)]
      obtain ⟨b1, bk, h1, h2⟩ := WBranch.createNewBasket_ok (b := b) (tn := tn) (f := f) (k := 0)
        (by rw [h.tables.data]; rfl) (by omega) (h.tables.offsetLen h0)
      rw [h1, Fs.bind_of_ok (show Fs.lift (Except.ok (b1, bk)) f = (.ok (b1, bk), f) from rfl)]
      exact ⟨_, _, rfl, h2⟩
    · rw [hb]
      exact ⟨_, _, rfl, hr _ hb⟩
  obtain ⟨b1, bk, h1, hr1⟩ := h1
  obtain ⟨-, hit1, hb1, -, -, -⟩ := h.currentBasket h0 h1
  unfold WBranch.write
  rw [Fs.bind_of_ok h1]
  dsimp only
  rw [hit1, hit]
  refine ⟨_, rfl, ?_, (fun h => by rw [hb1] at h; cases h)⟩
  intro bk' hbk
  rw [hb1] at hbk
  injection hbk with hbk
  exact hbk ▸ hr1

end

/-- The bytes of all the entries of a column. -/
theorem done_bytes {es : List Done} {k : Nat} (h : ∀ d ∈ es, k ≤ d.es.flatten.length) :
    es.length * k ≤ ((es.map Done.es).flatten).flatten.length := by
  induction es with
  | nil => simp
  | cons d es ih =>
    have h1 := h d (by simp)
    have h2 := ih fun d hd => h d (by simp [hd])
    simp only [List.length_cons, List.map_cons, List.flatten_cons, List.flatten_append, List.length_append,
      Nat.succ_mul]
    omega

theorem flatten_take_le {α} (l : List (List α)) (n : Nat) :
    (l.take n).flatten.length ≤ l.flatten.length := by
  have : l.flatten = (l.take n).flatten ++ (l.drop n).flatten := by
    rw [← List.flatten_append, List.take_append_drop]
  rw [this, List.length_append]
  omega

/-- Entries that a basket has room for, and not too many of them: `n` of them make less than 32767 baskets. -/
structure Column.Moderate (c : Column) (n : Nat) : Prop where
  ok : ∀ v ∈ c.vals, c.ty.Ok v
  entries : ∀ v ∈ c.vals, (entryBytes c.ty v).length ≤ if c.ty.varies then 1001 else 90000000
  total : c.ty.varies = true → (c.vals.flatMap (entryBytes c.ty)).length ≤ 1000000000
  few : c.ty.varies = false → ∃ w, (∀ v ∈ c.vals, (entryBytes c.ty v).length = w) ∧ n < 32767 * perBasket w

theorem Column.Moderate.mono {c : Column} {n m : Nat} (h : c.Moderate n) (hm : m ≤ n) : c.Moderate m :=
  ⟨h.ok, h.entries, h.total, fun hv => let ⟨w, h1, h2⟩ := h.few hv; ⟨w, h1, Nat.lt_of_le_of_lt hm h2⟩⟩

/-- What holds while a column is written that fits. -/
structure RoomState (env : Env) (tn : Str) (c : Column) (n : Nat) (b : WBranch) (f : FileW) (path : Str)
    (b0 : Branch) (l0 : Leaf) (done : List Done) (cur : List (List Byte)) : Prop where
  state : ColumnState env tn c n b f path b0 l0 done cur
  big : c.ty.varies = true → ∀ d ∈ done, 31767 ≤ d.es.flatten.length
  half : ∀ d ∈ done, 16384 ≤ d.es.flatten.length
  roomy : ∀ bk, b.basket = some bk → bk.basket.Roomy

theorem EvenlyCut.count {w : Nat} {done : List Done} {cur : List (List Byte)} (h : EvenlyCut w done cur) :
    (done.map Done.es).flatten.length = done.length * perBasket w := by
  obtain ⟨h, -⟩ := h
  induction done with
  | nil => simp
  | cons d done ih =>
    rw [List.map_cons, List.flatten_cons, List.length_append, h d (by simp), ih fun d hd => h d (by simp [hd]),
      List.length_cons, Nat.succ_mul]
    omega

/-- The entries taken, by baskets. -/
theorem ColumnState.count {env : Env} {tn path : Str} {c : Column} {n : Nat} {b : WBranch} {f : FileW}
    {b0 : Branch} {l0 : Leaf} {done : List Done} {cur : List (List Byte)}
    (h : ColumnState env tn c n b f path b0 l0 done cur) {w : Nat} (hw : ∀ v ∈ c.vals, (entryBytes c.ty v).length = w) :
    n = done.length * perBasket w + cur.length ∧ cur.length < perBasket w := by
  have h1 := congrArg List.length h.taken
  have h2 := h.le
  have h3 := (h.cut w hw).count
  simp only [List.length_append, List.length_map, List.length_take] at h1
  exact ⟨by omega, (h.cut w hw).2⟩

/-- The bytes of the basket being filled. -/
theorem ColumnState.cur_bytes {env : Env} {tn path : Str} {c : Column} {n : Nat} {b : WBranch} {f : FileW}
    {b0 : Branch} {l0 : Leaf} {done : List Done} {cur : List (List Byte)}
    (h : ColumnState env tn c n b f path b0 l0 done cur) {w : Nat} (hw : ∀ v ∈ c.vals, (entryBytes c.ty v).length = w) :
    cur.flatten.length = cur.length * w := by
  refine flatten_even fun e he => ?_
  have : e ∈ (done.map Done.es).flatten ++ cur := List.mem_append_right _ he
  rw [h.taken] at this
  obtain ⟨v, hv, rfl⟩ := List.mem_map.1 this
  exact hw v (List.mem_of_mem_take hv)

theorem RoomState.few {env : Env} {tn path : Str} {c : Column} {n : Nat} {b : WBranch} {f : FileW}
    {b0 : Branch} {l0 : Leaf} {done : List Done} {cur : List (List Byte)}
    (h : RoomState env tn c n b f path b0 l0 done cur) (hm : c.Moderate (n + 1)) {v : c.ty.Val} (hv : v ∈ c.vals)
    (hfull : 32768 ≤ cur.flatten.length + 2 * (entryBytes c.ty v).length) : done.length ≤ 32765 := by
  cases hvar : c.ty.varies with
  | true =>
    have ht := hm.total hvar
    have h1 := done_bytes (h.big hvar)
    have h2 := congrArg (fun l => l.flatten.length) h.state.taken
    simp only [List.flatten_append, List.length_append] at h2
    rw [List.map_take] at h2
    have h3 := flatten_take_le (c.vals.map (entryBytes c.ty)) n
    rw [← List.flatMap_def] at h3
    omega
  | false =>
    obtain ⟨w, hw, hn⟩ := hm.few hvar
    obtain ⟨h1, h2⟩ := h.state.count hw
    rw [h.state.cur_bytes hw, hw v hv, ← Nat.add_mul] at hfull
    have h3 := perBasket_full h2 hfull
    have h4 : (done.length + 1) * perBasket w < 32767 * perBasket w := by
      rw [Nat.succ_mul]
      omega
    have := Nat.lt_of_mul_lt_mul_right h4
    omega

/-- A call of `write` succeeds. -/
theorem RoomState.progress {env : Env} {tn path : Str} {c : Column} {n : Nat} {b : WBranch} {f : FileW}
    {b0 : Branch} {l0 : Leaf} {done : List Done} {cur : List (List Byte)}
    (hm : c.Moderate (min (n + 1) c.vals.length)) (hk : bkl c.name tn ≤ 100000000)
    (h : RoomState env tn c n b f path b0 l0 done cur) :
    ∃ b' m f', b.write tn f = (.ok (b', m), f') ∧ (m.isSome ↔ n < c.vals.length) ∧
      (∀ bk, b'.basket = some bk → bk.basket.Roomy) ∧ b'.basket ≠ none ∧
      (f' = f ∨ ∃ v bk r i, c.vals[n]? = some v ∧
        Current c.name tn c.ty.varies i (cur ++ [entryBytes c.ty v]) bk ∧ bk.writeToFile f = (.ok r, f')) := by
  have hc := h.state
  rcases Nat.lt_or_ge n c.vals.length with hlt | hge
  · have hd : c.vals.drop n = c.vals[n] :: c.vals.drop (n + 1) := List.drop_eq_getElem_cons hlt
    have hv : c.ty.Ok c.vals[n] := hm.ok _ (List.getElem_mem _)
    have hit := hc.items
    rw [hd, List.map_cons] at hit
    obtain ⟨hne, he⟩ := hc.entry _ hv
    obtain ⟨b', m, f', hw, hr, hnn, hst⟩ := hc.filling.progress hc.fresh h.roomy hit (Ty.writes_marshal hv) hne
      (by rw [he]; exact hm.entries _ (List.getElem_mem _)) (by rw [hc.name]; exact hk)
      (by rw [he]; exact h.few (by rwa [Nat.min_eq_left hlt] at hm) (List.getElem_mem _))
    have hm := WBranch.write_some hit hw
    refine ⟨b', m, f', hw, ?_, hr, hnn, ?_⟩
    · cases m with
      | none => exact absurd rfl hm
      | some k => exact ⟨fun _ => hlt, fun _ => rfl⟩
    · rcases hst with hst | ⟨bk, r, i, hcu, hst⟩
      · exact .inl hst
      · rw [he, hc.name] at hcu
        exact .inr ⟨_, bk, r, i, List.getElem?_eq_getElem hlt, hcu, hst⟩
  · have hit := hc.items
    rw [List.drop_eq_nil_of_le hge] at hit
    obtain ⟨b', hw, hr, hnn⟩ := hc.filling.progress_none hc.fresh h.roomy hit
    exact ⟨b', none, f, hw, ⟨(fun h => by cases h), fun h => absurd h (by omega)⟩, hr, hnn, .inl rfl⟩

/-- One more entry has been taken. -/
theorem RoomState.next {env : Env} {tn path : Str} {c : Column} {n : Nat} {b b' : WBranch} {f f' : FileW}
    {b0 : Branch} {l0 : Leaf} {done done' : List Done} {cur cur' : List (List Byte)} {v : c.ty.Val} {P Q : Prop}
    {R : Done → Prop} (h : RoomState env tn c n b f path b0 l0 done cur)
    (hs : ∀ v ∈ c.vals, (entryBytes c.ty v).length ≤ if c.ty.varies then 1001 else 90000000) (hv : v ∈ c.vals)
    (h1 : ColumnState env tn c (n + 1) b' f' path b0 l0 done' cur')
    (h2 : (done' = done ∧ P ∧ Q) ∨ ∃ d, done' = done ++ [d] ∧ cur' = [] ∧ d.es = cur ++ [entryBytes c.ty v] ∧ R d ∧
      defaultBasketSize ≤ (d.es.flatten.length : Int) + (entryBytes c.ty v).length)
    (hr : ∀ bk, b'.basket = some bk → bk.basket.Roomy) : RoomState env tn c (n + 1) b' f' path b0 l0 done' cur' := by
  rcases h2 with ⟨rfl, -⟩ | ⟨d, rfl, -, hes, -, hd⟩
  · exact ⟨h1, h.big, h.half, hr⟩
  · unfold defaultBasketSize at hd
    have hle : (entryBytes c.ty v).length ≤ d.es.flatten.length := by rw [hes]; simp
    refine ⟨h1, fun hvar x hx => ?_, fun x hx => ?_, hr⟩
    · rcases List.mem_append.1 hx with hx | hx
      · exact h.big hvar x hx
      · rw [List.mem_singleton.1 hx]
        have := hs v hv
        rw [if_pos hvar] at this
        omega
    · rcases List.mem_append.1 hx with hx | hx
      · exact h.half x hx
      · rw [List.mem_singleton.1 hx]
        omega

theorem Writing.room {env : Env} {tn : Str} {c : Column} {n : Nat} {b : WBranch} {f : FileW}
    (hm : c.Moderate n) (hk : bkl c.name tn ≤ 100000000) (h : Writing env tn c n b f) :
    ∃ path b0 l0 done cur, RoomState env tn c n b f path b0 l0 done cur := by
  induction h with
  | start hs hn =>
    obtain ⟨-, h2, -⟩ := WBranch.new_fresh hn
    obtain ⟨l0, h⟩ := ColumnState.start (session_inv hs) hn
    exact ⟨_, _, _, _, _, h, (fun _ d hd => by cases hd), (fun d hd => by cases hd), (fun bk hb => by rw [h2] at hb; cases hb)⟩
  | others hw hr ih =>
    obtain ⟨path, b0, l0, done, cur, h⟩ := ih hm
    obtain ⟨vs, ht, -⟩ := runs_grows h.state.filling.inv hr
    exact ⟨_, _, _, _, _, h.state.mono (runs_inv h.state.filling.inv hr)
      (fun w hw => by rw [ht]; exact List.mem_append_left _ hw), h.big, h.half, h.roomy⟩
  | entry hw hx hb ih =>
    obtain ⟨path, b0, l0, done, cur, h⟩ := ih (hm.mono (Nat.le_succ _))
    obtain ⟨_, _, _, hx', -, hr, -⟩ := h.progress (hm.mono (Nat.min_le_left ..)) hk
    rw [hx] at hx'
    cases hx'
    obtain ⟨-, ⟨h1, -⟩ | ⟨v, hv, -, -, done', cur', h1, h2⟩⟩ := h.state.write hm.ok hx hb.data
    · cases h1
    · exact ⟨_, _, _, _, _, h.next hm.entries hv h1 h2 hr⟩
  | exhausted hw hx hb ih =>
    obtain ⟨path, b0, l0, done, cur, h⟩ := ih hm
    obtain ⟨_, _, _, hx', -, hr, -⟩ := h.progress (hm.mono (Nat.le_trans (Nat.min_le_right ..) (by
      obtain ⟨-, ⟨-, h2, -⟩ | ⟨_, -, -, h1, -⟩⟩ := h.state.write hm.ok hx hb.data
      · omega
      · cases h1))) hk
    rw [hx] at hx'
    cases hx'
    obtain ⟨-, ⟨-, -, h1⟩ | ⟨_, -, -, h1, -⟩⟩ := h.state.write hm.ok hx hb.data
    · exact ⟨_, _, _, _, _, h1, h.big, h.half, hr⟩
    · cases h1

/-! ### A long entry -/

theorem runs_below {env : Env} {ops : List Op} {f g : FileW} (hb : f.Below2GB) (h : Runs env f ops g) :
    g.Below2GB := by
  cases h with
  | nil => exact hb
  | snoc _ _ _ h => exact h

theorem session_below {env : Env} {path : Str} {ops : List Op} {f : FileW} (h : Session env path ops f) :
    f.Below2GB := by
  obtain ⟨ids, f0, h0, hb, h1⟩ := h
  exact runs_below hb h1

/-- A basket whose table has 1000 places though one entry has more than 1001 bytes. -/
def Basket.Tight (b : Basket) : Prop := b.offsets.length = 1000 ∧ 1002 ≤ b.nevSize

/-- The table is not enlarged. -/
theorem Basket.grow_tight {b : Basket} (h : b.nevBuf + 1 < b.nevSize) : b.grow = b := by
  unfold Basket.grow
  rw [if_neg (by omega)]

theorem fill_tight {b : WBranch} {bk : WBasket} {item : Wr Nat} {rest : List (Option (Wr Nat))}
    {l0 l : Leaf} {bs : List Byte} {k : Nat} (hl : b.branch.data.leaves = [l]) (h0 : l0.Writable)
    (hlike : LeafLike l0 l) (hi : Writes item bs bs.length) (hwf : bk.wbuf.WF)
    (hlen : bk.basket.offsets.length = 1000) (hk : bk.basket.nevBuf = k) (hk2 : k < 1000)
    (hg : bk.basket.nevBuf + 1 < bk.basket.nevSize)
    (hs : (l0.entryOf bs).length ≤ 32768) (hbig : 1002 ≤ bk.basket.nevSize ∨ 1002 ≤ (l0.entryOf bs).length) :
    ∃ b' bk' m, b.fill bk item rest = .ok (b', bk', m) ∧ bk'.basket.Tight := by
  have hne : bk.basket.offsets ≠ [] := fun h => by rw [h] at hlen; cases hlen
  have hu : ∃ bk1, bk.update bk.wbuf.p.length = .ok bk1 ∧ bk1.wbuf = bk.wbuf ∧
      bk1.basket.nevSize = bk.basket.nevSize ∧ bk1.basket.offsets.length = 1000 := by
    unfold WBasket.update
    simp only [if_neg hne, Basket.grow_tight hg]
    rw [if_neg (by omega)]
    exact ⟨_, rfl, rfl, rfl, by simp only [List.length_set]; exact hlen⟩
  obtain ⟨bk1, hu, hw1, hn1, hl1⟩ := hu
  obtain ⟨l', hw, -⟩ := Leaf.writeToBuffer_ok h0 hlike hi (hw1 ▸ hwf : bk1.wbuf.WF)
  unfold WBranch.fill
  rw [hl]
  dsimp only
  rw [Res.bind_ok hu, Res.bind_ok hw]
  refine ⟨_, _, _, rfl, hl1, ?_⟩
  have e : asI 4 (((bk1.wbuf.app (l0.entryOf bs)).p.length : Int) - bk.wbuf.p.length) =
      ((l0.entryOf bs).length : Int) := by
    rw [hw1, WBuffer.app_p, List.length_append]
    rw [show (((bk.wbuf.p.length + (l0.entryOf bs).length : Nat) : Int) - bk.wbuf.p.length) =
      ((l0.entryOf bs).length : Int) by omega]
    exact asI_of (by decide) (inI4_le (by omega) (by omega))
  simp only [e]
  split <;> omega

section
variable {path tn : Str} {b0 : Branch} {l0 : Leaf}

/-- One more entry in a basket that cannot grow. -/
theorem Filling.tight (h0 : FreshBranch true b0 l0) {f : FileW}
    {cur : List (List Byte)} {b : WBranch} {item : Wr Nat} {bs : List Byte}
    {rest : List (Option (Wr Nat))} (h : Filling path tn true b0 l0 f [] cur b)
    (hr : (cur = [] ∧ b.basket = .none ∧ 1002 ≤ (l0.entryOf bs).length) ∨
      ∃ bk, b.basket = some bk ∧ bk.basket.Tight)
    (hit : b.items = some item :: rest) (hi : Writes item bs bs.length) (hne : bs ≠ [])
    (hs : cur.flatten.length + (l0.entryOf bs).length ≤ 16000) (hk : cur.length < 1000) :
    ∃ b' m bk, b.write tn f = (.ok (b', some m), f) ∧ b'.basket = some bk ∧ bk.basket.Tight ∧
      Filling path tn true b0 l0 f [] (cur ++ [l0.entryOf bs]) b' ∧ b'.items = rest := by
  have h1 : ∃ b1 bk, b.currentBasket tn f = (.ok (b1, bk), f) ∧ bk.basket.offsets.length = 1000 ∧
      1000 ≤ bk.basket.nevSize ∧ bk.basket.nevBuf + 1 < bk.basket.nevSize ∧
      (1002 ≤ bk.basket.nevSize ∨ 1002 ≤ (l0.entryOf bs).length) := by
    unfold WBranch.currentBasket
    rcases hr with ⟨rfl, hb, hlong⟩ | ⟨bk, hb, ht⟩
    · rw [hb]
      dsimp only
      rw [Fs.bind_of_ok (show Fs.get f = (.ok f, f) from rfl)]
      have hwb : b.branch.data.writeBasket = 0 := by rw [h.tables.data]; rfl
      have hoff : b.branch.data.entryOffsetLen = 1000 := by rw [h.tables.data]; exact h0.offs
      unfold WBranch.createNewBasket
      simp only [hwb, hoff]
      rw [if_neg (by decide), Fs.bind_of_ok (show Fs.lift (Except.ok _) f = (.ok _, f) from rfl)]
      refine ⟨_, _, rfl, ?_⟩
      unfold Basket.newFromBranch
      exact ⟨List.length_replicate, (by decide : (1000 : Int) ≤ 1000), (by decide : (0 : Int) + 1 < 1000), .inr hlong⟩
    · rw [hb]
      rcases h.basket with ⟨hb', -, -⟩ | ⟨bk0, hb', hc, -⟩
      · rw [hb] at hb'; cases hb'
      · rw [hb] at hb'
        injection hb' with hb'
        subst hb'
        have := hc.nev
        obtain ⟨t1, t2⟩ := ht
        exact ⟨_, _, rfl, t1, by omega, by omega, .inl t2⟩
  obtain ⟨b1, bk, h1, t1, t2, t3, t4⟩ := h1
  obtain ⟨-, hit1, hb1, hfl, hc, -⟩ := h.currentBasket h0 h1
  obtain ⟨l, hl, hlike⟩ := hfl.tables.leaf
  obtain ⟨b2, bk2, n, h2, hr2⟩ := fill_tight (rest := rest) hl h0.writable hlike hi hc.wf t1 hc.nev hk t3
    (by omega) t4
  obtain ⟨hc2, hit2, hb2, hn, ht2⟩ := Current.fill h0 hfl.tables hc hfl.small hi hne h2
  have hn' : n = (l0.entryOf bs).length := by
    rw [hn]; exact asI_of (by decide) (inI4_le (by omega) (by omega))
  have ht3 := ht2 (by simp only [kStartBigFile]; omega)
  have hlen2 : bk2.wbuf.p.length = cur.flatten.length + (l0.entryOf bs).length := by
    rw [hc2.bytes]; simp
  have hsz : b2.branch.data.basketSize = defaultBasketSize := by rw [ht3.data]; exact h0.size
  unfold WBranch.write
  rw [Fs.bind_of_ok h1]
  dsimp only
  rw [hit1, hit]
  dsimp only
  rw [h2, Fs.bind_of_ok (show Fs.lift (Except.ok (b2, bk2, n)) f = (.ok (b2, bk2, n), f) from rfl)]
  unfold WBranch.spill
  dsimp only
  rw [hsz, if_neg (by omega), if_neg (by unfold defaultBasketSize; omega)]
  refine ⟨_, _, bk2, rfl, hb2, hr2, ⟨h.inv, ?_, .inr ⟨bk2, hb2, hc2, by simp⟩, ?_⟩, hit2⟩
  · rw [List.length_append, List.length_singleton, ← Nat.add_assoc]
    exact ht3
  · simp only [List.flatten_append, List.flatten_cons, List.flatten_nil, List.append_nil,
      List.length_append]
    omega

/-- The entry for which there is no place. -/
theorem Filling.tight_aborts {f : FileW} {cur : List (List Byte)} {b : WBranch} {item : Wr Nat}
    {rest : List (Option (Wr Nat))} {bk : WBasket} (h : Filling path tn true b0 l0 f [] cur b)
    (hb : b.basket = some bk) (ht : bk.basket.Tight) (hit : b.items = some item :: rest)
    (hk : cur.length = 1000) : b.write tn f = (.error .panic, f) := by
  rcases h.basket with ⟨hb', -, -⟩ | ⟨bk0, hb', hc, -⟩
  · rw [hb] at hb'; cases hb'
  rw [hb] at hb'
  injection hb' with hb'
  subst hb'
  have hnev := hc.nev
  obtain ⟨t1, t2⟩ := ht
  obtain ⟨l, hl, -⟩ := h.tables.leaf
  have hne : bk.basket.offsets ≠ [] := fun h => by rw [h] at t1; cases t1
  have hu : bk.update bk.wbuf.p.length = .error .panic := by
    unfold WBasket.update
    simp only [if_neg hne, Basket.grow_tight (show bk.basket.nevBuf + 1 < bk.basket.nevSize by omega)]
    rw [if_pos (by omega)]
  have hfill : b.fill bk item rest = .error .panic := by
    unfold WBranch.fill
    rw [hl]
    dsimp only
    rw [hu]
    rfl
  unfold WBranch.write WBranch.currentBasket
  rw [hb]
  dsimp only
  rw [Fs.bind_of_ok (show (pure (b, bk) : Fs _) f = (.ok (b, bk), f) from rfl)]
  dsimp only
  rw [hit]
  dsimp only
  rw [hfill]
  rfl

end

end Verif
