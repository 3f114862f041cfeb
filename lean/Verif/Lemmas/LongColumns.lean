import Verif.Lemmas.Total
/-
The 32767th basket of a column.
-/
namespace Verif

/-- When the 32767th basket is being filled and one entry is missing. -/
theorem ColumnState.last {env : Env} {tn path : Str} {c : Column} {n : Nat} {b : WBranch} {f : FileW}
    {b0 : Branch} {l0 : Leaf} {done : List Done} {cur : List (List Byte)}
    (h : ColumnState env tn c n b f path b0 l0 done cur) {w : Nat} (hw : ∀ v ∈ c.vals, (entryBytes c.ty v).length = w)
    (hn : n + 1 = 32767 * perBasket w) : done.length = 32766 ∧ cur.length + 1 = perBasket w := by
  obtain ⟨h1, h2⟩ := h.count hw
  have h3 : (done.length + 1) * perBasket w = done.length * perBasket w + perBasket w := Nat.succ_mul ..
  have h4 : done.length < 32767 := by
    have : done.length * perBasket w < 32767 * perBasket w := by omega
    exact Nat.lt_of_mul_lt_mul_right this
  have h5 : 32767 ≤ done.length + 1 := by
    refine Nat.le_of_mul_le_mul_right (c := perBasket w) ?_ (perBasket_pos w)
    omega
  have h6 : done.length = 32766 := by omega
  rw [h6] at h1 h3
  exact ⟨h6, by omega⟩

theorem ColumnState.few {env : Env} {tn path : Str} {c : Column} {n : Nat} {b : WBranch} {f : FileW}
    {b0 : Branch} {l0 : Leaf} {done : List Done} {cur : List (List Byte)}
    (h : ColumnState env tn c n b f path b0 l0 done cur) : done.length ≤ 32766 := by
  rcases h.filling.basket with ⟨-, rfl, -⟩ | ⟨-, -, -, h⟩
  · exact Nat.zero_le _
  · exact h

/-- The call of `write` that fills the 32767th basket. -/
theorem RoomState.overflow {env : Env} {tn path : Str} {c : Column} {n : Nat} {b : WBranch} {f : FileW}
    {b0 : Branch} {l0 : Leaf} {done : List Done} {cur : List (List Byte)} {w : Nat}
    (hok : ∀ v ∈ c.vals, c.ty.Ok v) (hv : c.ty.varies = false) (hw : ∀ v ∈ c.vals, (entryBytes c.ty v).length = w)
    (hsmall : w ≤ 90000000) (hk : bkl c.name tn ≤ 100000000) (hn : n + 1 = 32767 * perBasket w) (hlt : n < c.vals.length)
    (h : RoomState env tn c n b f path b0 l0 done cur) : ∃ f', b.write tn f = (.error .panic, f') := by
  have hc := h.state
  have hd : c.vals.drop n = c.vals[n] :: c.vals.drop (n + 1) := List.drop_eq_getElem_cons hlt
  have hm := List.getElem_mem hlt
  have hit := hc.items
  rw [hd, List.map_cons] at hit
  obtain ⟨hne, he⟩ := hc.entry _ (hok _ hm)
  obtain ⟨h1, h2⟩ := hc.last hw hn
  refine hc.filling.overflow hc.fresh h.roomy hit (Ty.writes_marshal (hok _ hm)) hne ?_ (by rw [hc.name]; exact hk) ?_ h1
  · rw [he, hw _ hm, hv]
    exact hsmall
  · rw [he, hw _ hm, hc.cur_bytes hw, ← Nat.add_mul]
    have hpos : 0 < w := by
      rw [← hw _ hm, ← he]
      have := l0.entryOf_ge (marshalled c.ty c.vals[n])
      have := List.length_pos_iff.2 hne
      omega
    rcases Nat.lt_or_ge ((cur.length + 2) * w) 32768 with hlt | hge
    · have := perBasket_room hpos hlt
      omega
    · exact hge

/-! ### A tree of one column -/

section
variable {env : Env} {path tn : Str} {c : Column} {w K : Nat}

theorem writeRounds_overflow (hok : ∀ v ∈ c.vals, c.ty.Ok v) (hv : c.ty.varies = false)
    (hw : ∀ v ∈ c.vals, (entryBytes c.ty v).length = w) (hsmall : w ≤ 90000000) (hK : K + 1 = 32767 * perBasket w)
    (hlong : K < c.vals.length) : ∀ {fuel k : Nat} {t : WTree} {b : WBranch} {f : FileW},
    t.branches = [b] → bkl c.name t.data.named.name ≤ 3000 → Inv path f → f.Below2GB → Fed k c b →
    AtRoom env t.data.named.name path f k c b → k ≤ K → K < fuel + k →
    16 * f.header.end_ + (c.load (b.pending + w * (K - k)) : Nat) + 1600000 ≤ 32000000000 →
    ∃ f', writeRounds fuel (doneBefore k [c]) t f = (.error .panic, f')
  | 0, k, t, b, f, _, _, _, _, _, _, _, hfuel, _ => by omega
  | fuel + 1, k, t, b, f, hb, hkey, hi, hbel, hfed, hr, hle, hfuel, hroom => by
    unfold writeRounds
    rcases Nat.lt_or_ge k K with hlt | hge
    · have hfit : c.Fits t.data.named.name (k + 1) := by
        refine ⟨⟨hok, fun v hm => ?_, fun h => ?_, fun _ => ⟨w, hw, by omega⟩⟩, hkey⟩
        · rw [hw v hm, hv]
          exact hsmall
        · rw [hv] at h
          cases h
      have hmul : w + w * (K - (k + 1)) = w * (K - k) := by
        have : K - k = K - (k + 1) + 1 := by omega
        rw [this, Nat.mul_succ]
        omega
      obtain ⟨b', m, f1, hwr, hb1, hi1, ht1, hr1, hn1, hm, hend1⟩ := hr.write_before (B := w * (K - k))
        (B' := w * (K - (k + 1))) (fun v hv => by rw [hw v (List.mem_of_getElem? hv)]; omega) (by omega) hfit hi hbel hroom
      have hlk : k < c.vals.length := by omega
      have hadd : ∃ tot1, addBytes 0 m f1 = (.ok tot1, f1) := by
        cases m with
        | none => exact ⟨0, rfl⟩
        | some x =>
          obtain ⟨x0, x1⟩ := hm x rfl
          have hlo := hi.lo
          have := dirPos_ge path
          have hl : 19 * (w * (K - k)) ≤ c.load (b.pending + w * (K - k)) := by
            unfold Column.load
            split <;> omega
          exact ⟨0 + x, Fs.i32_of (inI4_abs (by omega) (by omega))⟩
      obtain ⟨tot, ha⟩ := hadd
      have h0 : writeRound t.data.named.name t.callbacks t.branches 0 f =
          (.ok ([b'], [m.isNone], tot, calls t.callbacks (.branch b.branch.name) ++ []), f1) := by
        rw [hb]
        unfold writeRound
        exact (Fs.bind_of_ok hwr).trans ((Fs.bind_of_ok ha).trans ((Fs.bind_of_ok rfl).trans rfl))
      have hfed' : All2 (Fed k) [c] t.branches := by
        rw [hb]
        exact ⟨hfed, trivial⟩
      obtain ⟨r1, r2, -⟩ := writeRound_fed hfed' h0
      have hall := all_doneBefore (k := k) (cols := [c])
      have hlg : ¬ longest [c] ≤ k := by
        intro h
        have := longest_le.1 h c (by simp)
        omega
      rw [Fs.bind_of_ok h0]
      simp only [r2, doneBefore_now]
      rw [if_neg fun h => hlg (hall.1 h)]
      exact writeRounds_overflow (k := k + 1) (b := b') hok hv hw hsmall hK hlong rfl hkey hi1 hb1 r1.1 hr1 hlt (by omega)
        (Int.le_trans (Int.add_le_add_right hend1 _) hroom)
    · have hkK : k = K := by omega
      subst hkK
      obtain ⟨b0, l0, done, cur, hm, hst⟩ := hr
      rw [Nat.min_eq_left (by omega)] at hst
      obtain ⟨f', hp⟩ := hst.overflow hok hv hw hsmall (by omega) hK hlong
      refine ⟨f', Fs.bind_of_error ?_⟩
      rw [hb]
      unfold writeRound
      exact Fs.bind_of_error hp

end

/-- A tree of one column of equal entries, too many. -/
theorem tree_overflow {path : Str} {addr : Nat → Nat} {t : TreeIn} {c : Column} {w : Nat} (hcols : t.cols = [c])
    (htn : t.name.length ≤ 1000)
    (hname : c.name.length ≤ 1000) (hsup : c.ty.isSupported = true) (hok : ∀ v ∈ c.vals, c.ty.Ok v)
    (hv : c.ty.varies = false)
    (hw : ∀ v ∈ c.vals, (entryBytes c.ty v).length = w) (hsmall : w ≤ 50000)
    (hlong : 32767 * perBasket w ≤ c.vals.length) {f : FileW} (hi : Inv path f) (hb : f.Below2GB)
    (hend : f.header.end_ ≤ 1000000) :
    ∃ b f', buildTree t.name t.callbacks t.cols = .ok b ∧
      b.write (bundledEnv addr) t.places f = (.error .panic, f') := by
  obtain ⟨b, hbt, hnew⟩ := buildTree_runs (tn := t.name) (cb := t.callbacks) (cols := t.cols) fun x hx => by
    rw [hcols] at hx
    rw [List.mem_singleton.1 hx]
    exact hsup
  obtain ⟨hfed, hw0⟩ := buildTree_fed hbt
  have hname' : b.data.named.name = t.name := by rw [hw0]; rfl
  have hleft := longest_left hfed
  rw [hcols] at hnew hfed hleft
  obtain ⟨x, xs, hbs, hx, hxs⟩ := hnew.cons_left
  cases hxs.nil_left
  rw [hbs] at hfed
  obtain ⟨hat, hpend⟩ := hx.atRoom (env := bundledEnv addr) (tn := b.data.named.name) hi
  have hkey : bkl c.name b.data.named.name ≤ 3000 := by
    rw [hname']
    have := kl_le_small c.name t.name (b! "TBasket")
    have e : (b! "TBasket").length = 7 := rfl
    show kl c.name t.name (b! "TBasket") ≤ _
    omega
  have hpos := perBasket_pos w
  have hpw : w * perBasket w ≤ 50000 := by
    unfold perBasket
    rcases Nat.lt_or_ge (32767 / w) 1 with h | h
    · rw [Nat.max_eq_left (by omega), Nat.mul_one]
      exact hsmall
    · rw [Nat.max_eq_right h]
      have := Nat.mul_div_le 32767 w
      omega
  have hmulK : w * (32767 * perBasket w - 1 - 0) ≤ 50000 * 32767 := by
    have h1 : w * (32767 * perBasket w - 1 - 0) ≤ w * (32767 * perBasket w) := Nat.mul_le_mul_left _ (by omega)
    have h2 : w * (32767 * perBasket w) = 32767 * (w * perBasket w) := by
      rw [← Nat.mul_assoc, Nat.mul_comm w 32767, Nat.mul_assoc]
    omega
  have hlg : c.vals.length ≤ longest [c] := longest_le.1 (Nat.le_refl _) c (by simp)
  obtain ⟨f', h⟩ := writeRounds_overflow (K := 32767 * perBasket w - 1) (fuel := b.left + 1) (k := 0) (t := b) hok hv hw
    (by omega) (by omega) (by omega) hbs hkey hi hb hfed.1 hat (Nat.zero_le _) (by omega) (by
      rw [hpend, Nat.zero_add]
      unfold Column.load
      rw [hv]
      simp only [Bool.false_eq_true, if_false]
      omega)
  refine ⟨b, f', by rw [hcols]; rw [hcols] at hbt; exact hbt, ?_⟩
  unfold WTree.write
  refine Fs.bind_of_error ?_
  have e : (b.branches.map fun _ => false) = doneBefore 0 [c] := by
    rw [hbs]
    rfl
  rw [e]
  exact h

end Verif
