import Verif.Lemmas.TreeOpened
/-
The records of the branches of a written tree can be held by the format.
-/
namespace Verif

/-! ### Texts -/

theorem utf8_append : ∀ {a b : List Byte}, utf8 a = true → utf8 b = true → utf8 (a ++ b) = true
  | [], b, _, hb => hb
  | b0 :: rest, b, ha, hb => by
    unfold utf8 at ha
    rw [List.cons_append]
    unfold utf8
    split at ha
    · next h => rw [if_pos h]; exact utf8_append ha hb
    · next h =>
      rw [if_neg h]
      split at ha
      · next h2 =>
        rw [if_pos h2]
        split at ha
        · next b1 rest' =>
          rw [Bool.and_eq_true] at ha
          rw [List.cons_append]
          dsimp only
          rw [ha.1, utf8_append ha.2 hb]; rfl
        · cases ha
      · next h2 =>
        rw [if_neg h2]
        split at ha
        · next h3 =>
          rw [if_pos h3]
          split at ha
          · next b1 b2 rest' =>
            rw [Bool.and_eq_true] at ha
            rw [List.cons_append, List.cons_append]
            dsimp only
            rw [ha.1, utf8_append ha.2 hb]; rfl
          · cases ha
        · next h3 =>
          rw [if_neg h3]
          split at ha
          · next h4 =>
            rw [if_pos h4]
            split at ha
            · next b1 b2 b3 rest' =>
              rw [Bool.and_eq_true] at ha
              rw [List.cons_append, List.cons_append, List.cons_append]
              dsimp only
              rw [ha.1, utf8_append ha.2 hb]; rfl
            · cases ha
          · cases ha

theorem utf8_ascii {a : List Byte} (h : ∀ b ∈ a, b.toNat < 128) : utf8 a = true := by
  induction a with
  | nil => rfl
  | cons b a ih =>
    unfold utf8
    rw [if_pos (h b (List.mem_cons_self ..))]
    exact ih fun x hx => h x (List.mem_cons_of_mem _ hx)

theorem utf8_decimal (n : Nat) : utf8 (decimal n) = true := by
  refine utf8_ascii fun b hb => ?_
  have := decimal_digits n b hb
  unfold isDigitByte at this
  simp [UInt8.le_iff_toNat_le] at this
  omega

theorem decimal_length {k : Nat} : ∀ {n : Nat}, n < 10 ^ (k + 1) → (decimal n).length ≤ k + 1 := by
  induction k with
  | zero =>
    intro n h
    rw [decimal_eq, if_pos (by simpa using h)]
    simp
  | succ k ih =>
    intro n h
    rw [decimal_eq]
    split
    · simp
    · rw [List.length_append]
      have : n / 10 < 10 ^ (k + 1) := by
        rw [Nat.pow_succ] at h
        omega
      have := ih this
      simp; omega

theorem plainNamed {n t : Str} (hn : TextOk n) (ht : TextOk t) : TNamed.Fits { name := n, title := t } :=
  ⟨(by decide : TObject.Plain TObject.default), hn, ht⟩

/-! ### Leaves -/

theorem inI4_tdiv {a b : Int} (h : InI 4 a) (hb : 0 < b) : InI 4 (a.tdiv b) := by
  obtain ⟨h1, h2⟩ := h
  rw [show ((256 ^ 4 : Nat) : Int) = 4294967296 from rfl] at h1 h2
  have : (a.tdiv b).natAbs ≤ a.natAbs := by
    rw [Int.natAbs_tdiv]
    exact Nat.div_le_self _ _
  rcases Int.le_total 0 a with ha | ha
  · have := Int.tdiv_nonneg ha (Int.le_of_lt hb)
    exact inI4_of (by omega) (by omega)
  · have h3 := Int.tdiv_nonneg (a := -a) (by omega) (Int.le_of_lt hb)
    rw [Int.neg_tdiv] at h3
    constructor <;> rw [show ((256 ^ 4 : Nat) : Int) = 4294967296 from rfl] <;> omega

theorem LeafKind.fits_zero (k : LeafKind) : k.Fits 0 := by
  cases k <;> first | exact (by decide : InI _ 0) | exact ⟨by decide, by decide⟩ | exact .inl rfl


theorem textOk_short {s : Str} (h : s.length ≤ 100000) (hu : utf8 s = true) : TextOk s := ⟨by omega, hu⟩

/-- The leaf of a column. -/
theorem leaf_storable {t : Ty} {name : Str} {l0 l : Leaf} (hl0 : Leaf.new t name = .ok l0) (hlike : LeafLike l0 l)
    (hu : utf8 name = true) (hlen : name.length ≤ 32700) (harr : ∀ n e, t = .arr n e → n < 2 ^ 31) :
    l.Storable := by
  have hn : TNamed.Fits { name := name, title := name } :=
    plainNamed (textOk_short (by omega) hu) (textOk_short (by omega) hu)
  have hl0s : l0.Storable := by
    by_cases ha : ∃ n e, t = .arr n e
    · obtain ⟨n, e, rfl⟩ := ha
      have hlt := harr n e rfl
      have has : asI 4 (n : Int) = n := asI_of (by decide) (inI4_of (by omega) (by omega))
      unfold Leaf.new at hl0
      dsimp only at hl0
      rw [has] at hl0
      split at hl0
      · cases hl0
      · next hnz =>
        split at hl0
        · cases hl0
        · next k u hk =>
          cases hl0
          have hd : (decimal n).length ≤ 10 := decimal_length (k := 9) (by omega)
          refine ⟨rfl, ⟨plainNamed (textOk_short (by omega) hu) (textOk_short ?_ ?_), (inI4_of (by omega) (by omega) : InI 4 (n : Int)),
            hnz, inI4_tdiv (asI_inI (by decide) _) (by omega), (by decide : InI 4 0), rfl⟩, k.fits_zero, k.fits_zero⟩
          · rw [decimalI_nat]
            simp only [List.length_append]
            have e1 : (b! "[").length = 1 := rfl
            have e2 : (b! "]").length = 1 := rfl
            omega
          · rw [decimalI_nat]
            exact utf8_append (utf8_append (utf8_append hu (by decide)) (utf8_decimal n)) (by decide)
    · cases t with
      | arr n e => exact absurd ⟨n, e, rfl⟩ ha
      | vec e =>
        unfold Leaf.new at hl0
        obtain ⟨_, -, hl0⟩ := Res.ok_bind.1 hl0
        cases hl0
        exact ⟨rfl, ⟨hn, (by decide : InI 4 1), (by decide : (1 : Int) ≠ 0), (by decide : InI 4 0), (by decide : InI 4 0), rfl⟩,
          (by decide : InI 4 (-1)), (by decide : InI 4 (-1))⟩
      | _ =>
        cases hl0
        exact ⟨rfl, ⟨hn, (by decide : InI 4 1), (by decide : (1 : Int) ≠ 0), by first
          | exact (by decide : InI 4 1) | exact (by decide : InI 4 2) | exact (by decide : InI 4 4)
          | exact (by decide : InI 4 8) | exact (by decide : InI 4 24), (by decide : InI 4 0), rfl⟩,
          LeafKind.fits_zero _, LeafKind.fits_zero _⟩
  cases hlike with
  | same => exact hl0s
  | string h1 h2 h3 h4 h5 =>
    obtain ⟨a, b, c, d⟩ := hl0s
    unfold kStartBigFile at h2 h4
    refine ⟨a, ⟨b.named, inI4_of (Int.le_trans (by decide) h1) (Int.lt_of_le_of_lt h2 (by decide)), ?_,
      b.etype, b.offset, b.count⟩, c, inI4_of (Int.le_trans (by decide) h3) (Int.lt_of_le_of_lt h4 (by decide))⟩
    intro h0; dsimp only at h0; omega

/-- The code of the type of a column. -/
theorem rootCode_text {c : Column} {b0 : Branch} {l0 : Leaf} (hm : Made c b0 l0)
    (harr : ∀ n e, c.ty = .arr n e → n < 2 ^ 31) : utf8 c.ty.rootCode = true ∧ c.ty.rootCode.length ≤ 40 := by
  obtain ⟨t, name, vals⟩ := c
  have h1 := hm.leaf
  have h2 := hm.vec
  dsimp only at *
  cases t with
  | vec e =>
    have := h2 e rfl
    cases e <;> first | exact absurd rfl this | exact ⟨by decide, by decide⟩
  | arr n e =>
    have hlt := harr n e rfl
    have hk : ∃ k u, e.leafKind = some (k, u) := by
      unfold Leaf.new at h1
      dsimp only at h1
      split at h1
      · cases h1
      · split at h1
        · cases h1
        · next k u hk => exact ⟨k, u, hk⟩
    have hd : (decimal n).length ≤ 10 := decimal_length (k := 9) (by omega)
    have he : utf8 e.rootCode = true ∧ e.rootCode.length ≤ 6 := by
      obtain ⟨k, u, hk⟩ := hk
      cases e <;> first | (cases hk; done) | exact ⟨by decide, by decide⟩
    unfold Ty.rootCode
    refine ⟨utf8_append (utf8_append (utf8_append (by decide) (utf8_decimal n)) (by decide)) he.1, ?_⟩
    simp only [List.length_append]
    have e1 : (b! "[").length = 1 := rfl
    have e2 : (b! "]/").length = 2 := rfl
    omega
  | _ => exact ⟨by decide, by decide⟩

theorem elemOf_storable {t : Ty} {e : BranchElem} (hv : ∀ e, t = .vec e → e.stlContent ≠ none)
    (h : t.elemOf = some e) : e.Storable := by
  cases t with
  | vec x =>
    have := hv x rfl
    cases x <;> first
      | exact absurd rfl this
      | (cases h; constructor <;> decide)
  | _ => cases h

theorem inI8_of {x : Int} (h : -9223372036854775808 ≤ x) (h' : x < 9223372036854775808) : InI 8 x := by
  unfold InI
  rw [show ((256 ^ 8 : Nat) : Int) = 18446744073709551616 from rfl]
  omega

/-- The branch of a column. -/
theorem DoneAt.storable {tn path : Str} {f : FileW} {c : Column} {b : WBranch} (h : DoneAt tn path f c b)
    (hc : c.Holds tn) (hlen : c.vals.length < 2 ^ 31) :
    b.branch.Storable b.branch.data.writeBasket.toNat ∧ b.branch.data.leaves.length = 1 := by
  obtain ⟨b0, l0, done, hm, hd⟩ := h
  have ht := hd.tables
  obtain ⟨l, hl, hlike⟩ := ht.leaf
  have hshort := hc.short
  have hroot := rootCode_text hm hc.arrays
  have hdata := ht.data
  rw [hm.branch] at hdata
  have hwb : b.branch.data.writeBasket = done.length := by rw [hdata]
  have hnb : b.branch.data.writeBasket.toNat = done.length := by rw [hwb]; rfl
  have hfew := ht.few
  have htot := ht.tot
  have hzip := ht.zip
  have hend : ((done.map Done.es).flatten).length = c.vals.length := by rw [hd.taken, List.length_map]
  refine ⟨⟨by rw [ht.subs, hm.branch]; rfl, ?_, ?_⟩, by rw [hl]; rfl⟩
  · rw [hnb]
    refine ⟨?_, ?_, ?_, ?_, ?_, hwb, by omega, ?_, ?_, ?_, ?_, ?_, ?_, ?_, ?_, ?_, ?_, ?_, ?_, ?_, ?_, ?_, ?_, ?_, ?_⟩
    · rw [hdata]
      refine plainNamed (textOk_short (by omega) hc.text) (textOk_short ?_ ?_)
      · simp only [List.length_append]
        have e1 : (b! "/").length = 1 := rfl
        omega
      · exact utf8_append (utf8_append hc.text (by decide)) hroot.1
    · rw [hdata]; exact (by decide : AttFill.default.Storable)
    · rw [hdata]; exact (by decide : InI 4 0)
    · rw [hdata]; exact (by decide : InI 4 defaultBasketSize)
    · rw [hdata]
      show InI 4 (if c.ty.varies then 1000 else 0)
      split <;> decide
    · rw [hdata]; exact inI8_of (by show _ ≤ ((c.vals.length : Nat) : Int); omega) (by show ((c.vals.length : Nat) : Int) < _; omega)
    · rw [hdata]; exact (by decide : InU 1 0)
    · rw [hdata]; exact (by decide : InI 4 0)
    · rw [hdata]; exact (by decide : InI 4 0)
    · rw [hdata]; exact inI8_of (by show _ ≤ ((c.vals.length : Nat) : Int); omega) (by show ((c.vals.length : Nat) : Int) < _; omega)
    · rw [hdata]; exact (by decide : InI 8 0)
    · unfold kStartBigFile at htot; exact inI8_of (by omega) (by omega)
    · unfold kStartBigFile at hzip; exact inI8_of (by omega) (by omega)
    · rw [hl]
      intro x hx
      rw [List.mem_singleton.1 hx]
      exact leaf_storable hm.leaf hlike hc.text (by omega) hc.arrays
    · rw [hl]; exact (by decide : 1 < 2 ^ 31)
    · rw [hdata]; rfl
    · rw [hdata]; simp
    · rw [hdata]; simp [starts_length]
    · rw [hdata]; simp
    · rw [hdata]
      intro x hx
      obtain ⟨d, hdm, rfl⟩ := List.mem_map.1 hx
      obtain ⟨i, hi, rfl⟩ := List.getElem_of_mem hdm
      have hb := ht.stored i _ (List.getElem?_eq_getElem hi)
      have h26 : 26 ≤ bkl b0.name tn := (keyLenFor_ge b0.name tn (b! "TBasket") false false).1
      have hlo := hb.lo
      have hhi := hb.hi
      have hbb := hb.bytes
      have hdp := dirPos_ge path
      unfold kStartBigFile at hhi
      exact inI4_of (by omega) (by omega)
    · rw [hdata]
      intro x hx
      rcases List.mem_append.1 hx with hx | hx
      · obtain ⟨s, hs, rfl⟩ := List.mem_map.1 hx
        have := (starts_le _ hs).2
        exact inI8_of (by omega) (by omega)
      · rw [List.mem_singleton.1 hx]
        exact inI8_of (by omega) (by omega)
    · rw [hdata]
      intro x hx
      obtain ⟨d, hdm, rfl⟩ := List.mem_map.1 hx
      obtain ⟨i, hi, rfl⟩ := List.getElem_of_mem hdm
      have hb := ht.stored i _ (List.getElem?_eq_getElem hi)
      have h26 : 26 ≤ bkl b0.name tn := (keyLenFor_ge b0.name tn (b! "TBasket") false false).1
      have hlo := hb.lo
      have hhi := hb.hi
      have hbb := hb.bytes
      have hdp := dirPos_ge path
      unfold kStartBigFile at hhi
      exact inI8_of (by omega) (by omega)
    · rw [hdata]; exact (by decide : TextOk [])
  · intro e he
    rw [ht.elem, hm.branch] at he
    exact elemOf_storable hm.vec he

/-! ### The branches in memory -/

theorem All2.length {α β} {R : α → β → Prop} : ∀ {as : List α} {bs : List β}, All2 R as bs → as.length = bs.length
  | [], [], _ => rfl
  | _ :: _, _ :: _, ⟨_, h⟩ => by simp [h.length]

theorem All2.get {α β} {R : α → β → Prop} : ∀ {as : List α} {bs : List β}, All2 R as bs → ∀ {i : Nat} {a : α} {b : β},
    as[i]? = some a → bs[i]? = some b → R a b
  | [], [], _, _, _, _, h, _ => by simp at h
  | _ :: _, _ :: _, ⟨h1, _⟩, 0, _, _, ha, hb => by
    simp only [List.getElem?_cons_zero, Option.some.injEq] at ha hb
    subst ha; subst hb; exact h1
  | _ :: _, _ :: _, ⟨_, h2⟩, i + 1, _, _, ha, hb => by
    simp only [List.getElem?_cons_succ] at ha hb
    exact h2.get ha hb

theorem All2.mem_right {α β} {R : α → β → Prop} : ∀ {as : List α} {bs : List β}, All2 R as bs → ∀ {b : β}, b ∈ bs →
    ∃ a ∈ as, R a b
  | _ :: _, _ :: _, ⟨h1, h2⟩, _, hb => by
    rcases List.mem_cons.1 hb with rfl | hb
    · exact ⟨_, List.mem_cons_self .., h1⟩
    · obtain ⟨a, ha, hr⟩ := h2.mem_right hb
      exact ⟨a, List.mem_cons_of_mem _ ha, hr⟩
  | [], [], _, _, hb => by cases hb

theorem placeBranches_length (places : Places) : ∀ (bs : List WBranch) (i : Nat),
    (placeBranches places i bs).length = bs.length
  | [], _ => rfl
  | _ :: bs, i => by simp [placeBranches, placeBranches_length places bs (i + 1)]

theorem placeBranches_map {β} (places : Places) (q : Branch → β) : ∀ (bs : List WBranch) (i : Nat),
    (placeBranches places i bs).map (fun b => q b.branch) = bs.map fun b => q b.branch
  | [], _ => rfl
  | _ :: bs, i => by simp [placeBranches, placeBranches_map places q bs (i + 1)]

theorem placeBranches_mem {places : Places} : ∀ {bs : List WBranch} {i : Nat} {p : PlacedBranch},
    p ∈ placeBranches places i bs → ∃ j, ∃ b ∈ bs, p = { addr := (places j).1, leafAddrs := (places j).2, branch := b.branch }
  | b :: bs, i, p, h => by
    rcases List.mem_cons.1 h with rfl | h
    · exact ⟨i, b, List.mem_cons_self .., rfl⟩
    · obtain ⟨j, b, hb, rfl⟩ := placeBranches_mem h
      exact ⟨j, b, List.mem_cons_of_mem _ hb, rfl⟩
  | [], _, _, h => by cases h

theorem placeBranches_addrs (places : Places) : ∀ (bs : List WBranch) (i : Nat),
    (placeBranches places i bs).flatMap PlacedBranch.addrs =
      (List.range' i bs.length).flatMap fun j => (places j).1 :: (places j).2
  | [], _ => rfl
  | b :: bs, i => by
    show PlacedBranch.addrs _ ++ (placeBranches places (i + 1) bs).flatMap PlacedBranch.addrs = _
    rw [placeBranches_addrs places bs (i + 1), List.length_cons, List.range'_succ]
    rfl

theorem placeBranches_leaves {places : Places} (h : ∀ i, (places i).2.length = 1) : ∀ (bs : List WBranch) (i : Nat),
    ((placeBranches places i bs).flatMap PlacedBranch.leafAddrs).length = bs.length
  | [], _ => rfl
  | b :: bs, i => by
    show ((places i).2 ++ (placeBranches places (i + 1) bs).flatMap PlacedBranch.leafAddrs).length = _
    rw [List.length_append, placeBranches_leaves h bs (i + 1), h i, List.length_cons]
    omega

/-- The number of baskets of a branch. -/
def PlacedBranch.written (b : PlacedBranch) : Nat := b.branch.data.writeBasket.toNat

section
variable {env : Env} {path tn : Str} {ids : Nat} {before after : List Op} {cb : Nat} {cols : List Column}
  {places : Places} {f0 f1 f2 f f' : FileW} {t : WTree} {ops : List Op} {g g' : FileW} {sis : List StreamerInfo}

theorem placed_of {bs : List WBranch} (hbs : All2 (DoneAt tn path g) cols bs) (hcols : ∀ c ∈ cols, c.Holds tn)
    (hfew : cols.length < 2 ^ 31) (hent : longest cols < 2 ^ 31) (hmem : ∀ i, (places i).2.length = 1)
    (hdist : ((List.range cols.length).flatMap fun i => (places i).1 :: (places i).2).Nodup) :
    PlacedOk (placeBranches places 0 bs) PlacedBranch.written := by
  have hlen := hbs.length
  have hs1 : ∀ b ∈ bs, b.branch.Storable b.branch.data.writeBasket.toNat ∧ b.branch.data.leaves.length = 1 := by
    intro b hb
    obtain ⟨c, hc, hd⟩ := hbs.mem_right hb
    refine hd.storable (hcols c hc) (Nat.lt_of_le_of_lt ?_ hent)
    exact longest_le.1 (Nat.le_refl _) c hc
  refine ⟨?_, ?_, ?_, ?_, ?_⟩
  · intro p hp
    obtain ⟨j, b, hb, rfl⟩ := placeBranches_mem hp
    exact (hs1 b hb).1
  · intro p hp
    obtain ⟨j, b, hb, rfl⟩ := placeBranches_mem hp
    exact (hmem j).trans (hs1 b hb).2.symm
  · rw [placeBranches_addrs, ← hlen, ← List.range_eq_range']
    exact hdist
  · rw [placeBranches_length]; omega
  · rw [placeBranches_leaves hmem]; omega

theorem TreeStored.placed (hh : TreeHolds env path before after tn cols places f0 f2 f')
    (hs : TreeStored env path tn places cols f1 f2 t ops g g' sis) :
    PlacedOk (placeBranches places 0 t.branches) PlacedBranch.written :=
  placed_of hs.branches hh.columns hh.few hh.entries hh.memory hh.distinct

theorem data_storable {tot : Int} (htot : tot.natAbs ≤ (longest cols + 1) * 2 ^ 31) {d : TreeData}
    (hd : d = { (WTree.new tn).data with totBytes := tot, entries := longest cols }) (he : longest cols < 2 ^ 31)
    (ht : tn.length ≤ 100000) (htext : utf8 tn = true) : d.Storable := by
  have h1 : (longest cols + 1) * 2 ^ 31 ≤ 2 ^ 31 * 2 ^ 31 := Nat.mul_le_mul_right _ he
  rw [hd]
  refine ⟨plainNamed (textOk_short (by omega) htext) (by decide), (by decide : AttLine.default.Storable), ?_, ?_, ?_, ?_, ?_, ?_, ?_, ?_, ?_, ?_, ?_, ?_,
    ?_, ?_, ?_, ?_, ?_, ?_, rfl, ?_, ?_, ?_, ?_⟩
  all_goals first
    | exact (by decide : AttFill.default.Storable)
    | exact (by decide : AttMarker.default.Storable)
    | exact inI8_of (x := (longest cols : Int)) (by omega) (by omega)
    | exact inI8_of (x := tot) (by omega) (by omega)
    | exact (by decide : InI 8 0)
    | exact (by decide : InU 8 0x3FF0000000000000)
    | exact (by decide : InI 4 0)
    | exact (by decide : InI 4 25)
    | exact (by decide : InI 4 1000)
    | exact (by decide : InI 8 1000000000000)
    | exact (by decide : InI 8 (-300000000))
    | exact (by decide : InI 8 (-30000000))
    | exact (by decide : InI 8 1000000)
    | exact (by decide : InU 1 0)
    | exact (by decide : 0 < 2 ^ 31)
    | (intro x hx; cases hx; done)

theorem TreeStored.dataStorable (hh : TreeHolds env path before after tn cols places f0 f2 f')
    (hs : TreeStored env path tn places cols f1 f2 t ops g g' sis) : t.data.Storable :=
  let ⟨_, htot, hd⟩ := hs.data
  data_storable htot.1 hd hh.entries (Nat.le_trans hh.treeShort (by decide)) hh.treeText

end

end Verif
