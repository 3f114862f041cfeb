import Verif.Spec.Containers
import Verif.Lemmas.BranchRead
/-
Reading sets, maps and arrays of varying size.
-/
namespace Verif

/-- The reader will not skip anything. -/
def ClearSkip (s : Option Int) : Prop := s = none ∨ s = some 0

/-- `m` reads `bs` as `a` and leaves a declared header size satisfying `Q`, from any satisfying `P`. -/
def ReadsE {α} (P Q : Option Int → Prop) (m : Rd α) (bs : List Byte) (a : α) : Prop :=
  ∀ r : RBuffer, P r.skip → r.c ≤ r.p.length → bs <+: r.rest →
    ∃ s, Q s ∧ m r = .ok (a, { r.adv bs.length with skip := s })

theorem ReadsE.mono {α} {P P' Q Q' : Option Int → Prop} {m : Rd α} {bs a} (h : ReadsE P Q m bs a)
    (hp : ∀ s, P' s → P s) (hq : ∀ s, Q s → Q' s) : ReadsE P' Q' m bs a := by
  intro r h1 h2 h3
  obtain ⟨s, h4, h5⟩ := h r (hp _ h1) h2 h3
  exact ⟨s, hq _ h4, h5⟩

theorem ReadsE.pure {α} {P : Option Int → Prop} (a : α) : ReadsE P P (Pure.pure a : Rd α) [] a :=
  fun r h _ _ => ⟨r.skip, h, rfl⟩

theorem ReadsE.bind {α β} {P Q R : Option Int → Prop} {m : Rd α} {f : α → Rd β} {b1 b2 a b}
    (h1 : ReadsE P Q m b1 a) (h2 : ReadsE Q R (f a) b2 b) : ReadsE P R (m >>= f) (b1 ++ b2) b := by
  intro r hs hc hp
  have hp1 := RBuffer.prefix_left hp
  obtain ⟨s, hq, e1⟩ := h1 r hs hc hp1
  obtain ⟨s', hr, e2⟩ := h2 { r.adv b1.length with skip := s } hq (RBuffer.adv_le hc hp1) (RBuffer.prefix_adv hp)
  refine ⟨s', hr, ?_⟩
  rw [Rd.bind_ok e1, e2]
  simp [RBuffer.adv, Nat.add_assoc]

theorem ReadsE.congr {α} {P Q : Option Int → Prop} {m : Rd α} {b1 b2 a} (h : ReadsE P Q m b1 a) (hb : b1 = b2) :
    ReadsE P Q m b2 a := hb ▸ h

theorem Reads.toE {α} {m : Rd α} {bs a} (h : Reads m bs a) {Q : Option Int → Prop} (hq : Q none) :
    ReadsE (· = none) Q m bs a := by
  intro r h1 h2 h3
  refine ⟨none, hq, ?_⟩
  rw [h r h1 h2 h3]
  cases r
  cases h1
  rfl

theorem Reads.free {α} {m : Rd α} {bs a} (h : Reads m bs a) (hf : SkipFree m) {P : Option Int → Prop} :
    ReadsE P P m bs a := by
  intro r h1 h2 h3
  exact ⟨r.skip, h1, h.skipped hf h2 h3⟩

theorem ReadsE.setSkip {P : Option Int → Prop} (s : Option Int) : ReadsE P (· = s) (Rd.setSkip s) [] () :=
  fun _ _ _ _ => ⟨s, rfl, rfl⟩

theorem ReadsE.header {h : List Byte} (hh : IsHeader h) {P : Option Int → Prop} (hp : ∀ s, P s → s = some (h.length : Int)) :
    ReadsE P (fun _ => True) Rd.doSkipHeader h () := by
  intro r h1 h2 h3
  refine ⟨r.skip, trivial, ?_⟩
  rw [Rd.doSkipHeader_present (hp _ h1) rfl hh.long hh.first h2 (bs := []) (by simpa using h3)]
  rfl

theorem ReadsE.noHeader : ReadsE ClearSkip ClearSkip Rd.doSkipHeader [] () := by
  intro r h1 h2 h3
  refine ⟨r.skip, h1, ?_⟩
  unfold Rd.doSkipHeader
  rcases h1 with h1 | h1 <;> rw [h1]
  · dsimp only
    rw [← h1]
    rfl
  · dsimp only
    rw [if_neg (by omega), if_neg (by omega), Rd.skipBy_eq (by decide), ← h1]
    rfl

theorem ReadsE.times {α} {P : Option Int → Prop} {m : Rd α} {enc : α → List Byte} {l : List α}
    (h : ∀ a ∈ l, ReadsE P P m (enc a) a) : ReadsE P P (Rd.times l.length m) (l.flatMap enc) l := by
  induction l with
  | nil => exact ReadsE.pure []
  | cons a as ih =>
    simp only [List.length_cons, Rd.times, List.flatMap_cons]
    refine ReadsE.bind (h a (by simp)) ?_
    refine (ReadsE.bind (ih fun b hb => h b (by simp [hb])) (f := fun as => Pure.pure (a :: as)) (b2 := []) (ReadsE.pure _)).congr (List.append_nil _)

theorem SkipFree.times {α} {m : Rd α} (h : SkipFree m) : (n : Nat) → SkipFree (Rd.times n m)
  | 0 => SkipFree.pure _
  | n + 1 => SkipFree.bind h fun _ => SkipFree.bind (SkipFree.times h n) fun _ => SkipFree.pure _

theorem Ty.skipFree : (t : Ty) → t.isPlain = true → SkipFree t.unmarshal
  | .bool, _ => by
    show SkipFree Rd.bool
    unfold Rd.bool
    exact SkipFree.bind (SkipFree.sint 1) fun _ => SkipFree.pure _
  | .i8, _ => SkipFree.sint 1
  | .i16, _ => SkipFree.sint 2
  | .i32, _ => SkipFree.sint 4
  | .i64, _ => SkipFree.sint 8
  | .u8, _ => SkipFree.uint 1
  | .u16, _ => SkipFree.uint 2
  | .u32, _ => SkipFree.uint 4
  | .u64, _ => SkipFree.uint 8
  | .f32, _ => SkipFree.uint 4
  | .f64, _ => SkipFree.uint 8
  | .string, h => by cases h
  | .vec _, h => by cases h
  | .arr n t, h => SkipFree.times (t.skipFree h) n

/-- The count and the items of a vector. -/
theorem ReadsE.vecBody {α} {P : Option Int → Prop} {m : Rd α} {enc : α → List Byte} {l : List α} (hl : l.length < 2 ^ 31)
    (h : ∀ a ∈ l, Reads m (enc a) a) :
    ReadsE P (· = none) (do
      let size ← Rd.i32
      if size < 0 then Rd.panic
      else
        Rd.setSkip none
        Rd.times size.toNat m : Rd (List α)) (encVec enc l) l :=
  fun _ _ h2 h3 => ⟨none, rfl, Reads.vecBody hl h h2 h3⟩

/-- Any value, when nothing is to be skipped. -/
theorem Ty.readsClear : (t : Ty) → (v : t.Val) → t.Ok v → ReadsE ClearSkip ClearSkip t.unmarshal (t.enc v) v
  | .string, v, h => by
    refine (ReadsE.bind (b1 := []) ReadsE.noHeader ?_).congr (List.nil_append _)
    exact (Reads.string (Nat.lt_trans h.1 (by decide)) h.2).free SkipFree.string
  | .vec t, v, h => by
    refine (ReadsE.bind (b1 := []) ReadsE.noHeader ?_).congr (List.nil_append _)
    exact (ReadsE.vecBody h.1 fun a ha => t.reads_unmarshal a (h.2 a ha)).mono (fun _ h => h) fun _ h => Or.inl h
  | .arr n t, v, h => by
    have hv : List.length v = n := h.1
    show ReadsE _ _ (Rd.times n t.unmarshal) ((List.take n v).flatMap t.enc) v
    have := ReadsE.times (m := t.unmarshal) (enc := t.enc) (l := v) (P := ClearSkip) fun a ha => t.readsClear a (h.2 a ha)
    rw [hv] at this
    exact this.congr (by rw [← hv, List.take_length])
  | .bool, v, h => (Ty.reads_unmarshal _ v h).free (Ty.skipFree .bool rfl)
  | .i8, v, h => (Ty.reads_unmarshal _ v h).free (Ty.skipFree .i8 rfl)
  | .i16, v, h => (Ty.reads_unmarshal _ v h).free (Ty.skipFree .i16 rfl)
  | .i32, v, h => (Ty.reads_unmarshal _ v h).free (Ty.skipFree .i32 rfl)
  | .i64, v, h => (Ty.reads_unmarshal _ v h).free (Ty.skipFree .i64 rfl)
  | .u8, v, h => (Ty.reads_unmarshal _ v h).free (Ty.skipFree .u8 rfl)
  | .u16, v, h => (Ty.reads_unmarshal _ v h).free (Ty.skipFree .u16 rfl)
  | .u32, v, h => (Ty.reads_unmarshal _ v h).free (Ty.skipFree .u32 rfl)
  | .u64, v, h => (Ty.reads_unmarshal _ v h).free (Ty.skipFree .u64 rfl)
  | .f32, v, h => (Ty.reads_unmarshal _ v h).free (Ty.skipFree .f32 rfl)
  | .f64, v, h => (Ty.reads_unmarshal _ v h).free (Ty.skipFree .f64 rfl)

/-- The first key, or value, of a map. -/
theorem Ty.readsFirst {t : Ty} (ht : t.isMember = true) {h : List Byte} (hh : MemberHeader t h) {v : t.Val} (hv : t.Ok v) :
    ReadsE (· = some 6) (fun _ => True) t.unmarshal (h ++ t.enc v) v := by
  unfold Ty.isMember at ht
  unfold MemberHeader at hh
  by_cases hp : t.isPlain = true
  · have hn : t.hasHeader = false := by cases t <;> first | rfl | cases hp
    rw [hn] at hh
    simp only [Bool.false_eq_true, if_false] at hh
    subst hh
    rw [List.nil_append]
    exact ((t.reads_unmarshal v hv).free (t.skipFree hp) (P := (· = some 6))).mono (fun _ h => h) fun _ _ => trivial
  · have hn : t.hasHeader = true := by simpa [hp] using ht
    rw [hn] at hh
    simp only [if_true] at hh
    have hd : IsHeader h := ⟨by omega, hh.2⟩
    have hskip : ReadsE (· = some 6) (fun _ => True) Rd.doSkipHeader h () :=
      ReadsE.header hd fun s hs => by rw [hs, hh.1]; rfl
    cases t with
    | string => exact ReadsE.bind hskip ((Reads.string (Nat.lt_trans hv.1 (by decide)) hv.2).free SkipFree.string)
    | vec t =>
      exact ReadsE.bind hskip ((ReadsE.vecBody hv.1 fun a ha => t.reads_unmarshal a (hv.2 a ha)).mono
        (fun _ h => h) fun _ _ => trivial)
    | _ => cases hn

/-- The keys, or the values, of a map. -/
theorem readsMembers {t : Ty} (ht : t.isMember = true) {h : List Byte} {l : List t.Val} (hl : l ≠ [])
    (hh : MemberHeader t h) (hv : ∀ v ∈ l, t.Ok v) :
    ReadsE (· = some 6) (fun _ => True) (Rd.times l.length (do
        let a ← t.unmarshal
        Rd.setSkip (some 0)
        pure a)) (h ++ l.flatMap t.enc) l := by
  cases l with
  | nil => exact absurd rfl hl
  | cons v l =>
    have hitem : ∀ {P : Option Int → Prop} {b : List Byte} {a : t.Val},
        ReadsE P (fun _ => True) t.unmarshal b a → ReadsE P (· = some 0) (do
          let a ← t.unmarshal
          Rd.setSkip (some 0)
          pure a) b a := by
      intro P b a h
      refine (ReadsE.bind h (b2 := []) ?_).congr (List.append_nil _)
      exact (ReadsE.bind (b1 := []) (ReadsE.setSkip _) (ReadsE.pure a)).congr rfl
    have hfirst := hitem (Ty.readsFirst ht hh (hv v (List.mem_cons_self ..)))
    have hnext : ∀ a ∈ l, ReadsE (· = some 0) (· = some 0) (do
          let a ← t.unmarshal
          Rd.setSkip (some 0)
          pure a) (t.enc a) a := fun a ha =>
      hitem ((t.readsClear a (hv a (List.mem_cons_of_mem _ ha))).mono (fun _ h => Or.inr h) fun _ _ => trivial)
    refine ReadsE.mono (Q := (· = some 0)) ?_ (fun _ h => h) fun _ _ => trivial
    simp only [List.length_cons, Rd.times, List.flatMap_cons]
    refine (ReadsE.bind hfirst ?_).congr (List.append_assoc ..)
    exact (ReadsE.bind (ReadsE.times hnext) (f := fun as => Pure.pure (v :: as)) (b2 := []) (ReadsE.pure _)).congr
      (List.append_nil _)

theorem flatMap_congr' {α} {f g : α → List Byte} {l : List α} (h : ∀ a ∈ l, f a = g a) : l.flatMap f = l.flatMap g := by
  induction l with
  | nil => rfl
  | cons a l ih =>
    simp only [List.flatMap_cons]
    rw [h a (List.mem_cons_self ..), ih fun a ha => h a (List.mem_cons_of_mem _ ha)]

theorem foldl_set {α} [DecidableEq α] (l : List α) (s : List α) (hs : s.Nodup) :
    (l.foldl setInsert s).Nodup ∧ ∀ x, x ∈ l.foldl setInsert s ↔ x ∈ s ∨ x ∈ l := by
  induction l generalizing s with
  | nil => exact ⟨hs, fun x => by simp⟩
  | cons a l ih =>
    simp only [List.foldl_cons]
    have h1 : (setInsert s a).Nodup := by
      unfold setInsert
      split
      · exact hs
      · rename_i hn
        refine List.nodup_append.2 ⟨hs, by simp, ?_⟩
        intro x hx y hy
        simp only [List.mem_singleton] at hy
        subst hy
        exact fun h => hn (h ▸ hx)
    have h2 : ∀ x, x ∈ setInsert s a ↔ x ∈ s ∨ x = a := by
      intro x
      unfold setInsert
      split
      · rename_i hm
        exact ⟨Or.inl, fun h => h.elim id fun h => h ▸ hm⟩
      · simp
    obtain ⟨i1, i2⟩ := ih _ h1
    refine ⟨i1, fun x => ?_⟩
    rw [i2, h2, List.mem_cons, or_assoc]

theorem mapInsert_keys {κ ν} [DecidableEq κ] (m : List (κ × ν)) (p : κ × ν) :
    ∀ k, k ∈ (mapInsert m p).map Prod.fst ↔ k ∈ m.map Prod.fst ∨ k = p.1 := by
  induction m with
  | nil => intro k; simp [mapInsert]
  | cons q m ih =>
    intro k
    unfold mapInsert
    split
    · rename_i h
      simp only [List.map_cons, List.mem_cons]
      constructor
      · rintro (h' | h')
        · exact Or.inl (Or.inl h')
        · exact Or.inl (Or.inr h')
      · rintro ((h' | h') | h')
        · exact Or.inl h'
        · exact Or.inr h'
        · exact Or.inl (h'.trans h.symm)
    · simp only [List.map_cons, List.mem_cons, ih k]
      exact ⟨fun h => h.elim (fun h => Or.inl (Or.inl h)) fun h => h.elim (fun h => Or.inl (Or.inr h)) Or.inr,
        fun h => h.elim (fun h => h.elim Or.inl fun h => Or.inr (Or.inl h)) fun h => Or.inr (Or.inr h)⟩

theorem mapInsert_nodup {κ ν} [DecidableEq κ] {m : List (κ × ν)} (p : κ × ν) (h : (m.map Prod.fst).Nodup) :
    ((mapInsert m p).map Prod.fst).Nodup := by
  induction m with
  | nil => simp [mapInsert]
  | cons q m ih =>
    simp only [List.map_cons, List.nodup_cons] at h
    unfold mapInsert
    split
    · simp only [List.map_cons, List.nodup_cons]
      exact h
    · rename_i hn
      simp only [List.map_cons, List.nodup_cons]
      refine ⟨fun hm => ?_, ih h.2⟩
      rcases (mapInsert_keys m p _).1 hm with hm | hm
      · exact h.1 hm
      · exact hn hm

theorem mapInsert_value {κ ν} [DecidableEq κ] (m : List (κ × ν)) (p : κ × ν) (k : κ) :
    valueOf (mapInsert m p) k = if p.1 = k then some p.2 else valueOf m k := by
  unfold valueOf
  induction m with
  | nil =>
    unfold mapInsert
    simp only [List.find?_cons, List.find?_nil]
    by_cases h : p.1 = k <;> simp [h]
  | cons q m ih =>
    unfold mapInsert
    by_cases hq : q.1 = p.1
    · rw [if_pos hq]
      simp only [List.find?_cons]
      by_cases h : p.1 = k
      · simp [hq, h]
      · have : ¬ q.1 = k := fun e => h (hq ▸ e)
        simp [this, h]
    · rw [if_neg hq]
      simp only [List.find?_cons]
      by_cases h : q.1 = k
      · have : ¬ p.1 = k := fun e => hq (h.trans e.symm)
        simp [h, this]
      · simp only [h, decide_false]
        exact ih

theorem foldl_map {κ ν} [DecidableEq κ] (l m : List (κ × ν)) (hm : (m.map Prod.fst).Nodup) :
    ((l.foldl mapInsert m).map Prod.fst).Nodup ∧
      ∀ k, valueOf (l.foldl mapInsert m) k = (lastValue l k).or (valueOf m k) := by
  induction l generalizing m with
  | nil => exact ⟨hm, fun k => rfl⟩
  | cons p l ih =>
    simp only [List.foldl_cons]
    obtain ⟨h1, h2⟩ := ih _ (mapInsert_nodup p hm)
    refine ⟨h1, fun k => ?_⟩
    rw [h2, mapInsert_value]
    unfold lastValue
    rw [List.reverse_cons, List.find?_append]
    cases hf : l.reverse.find? fun p => decide (p.1 = k) with
    | some q => simp
    | none =>
      by_cases h : p.1 = k <;> simp [h]

/-- The declared header size an item type copes with. -/
def slicable (t : Ty) (s : Option Int) : Prop := t.isPlain = true ∨ ClearSkip s

theorem Ty.readsSlicable (t : Ty) {v : t.Val} (hv : t.Ok v) : ReadsE (slicable t) (slicable t) t.unmarshal (t.enc v) v := by
  by_cases hp : t.isPlain = true
  · exact ((t.reads_unmarshal v hv).free (t.skipFree hp) (P := slicable t))
  · refine (t.readsClear v hv).mono (fun s h => ?_) fun s h => Or.inr h
    exact h.elim (fun h => absurd h hp) id

/-- The loop over the rest of the buffer. -/
theorem sliceLoop_reads {t : Ty} (l : List t.Val) (hv : ∀ v ∈ l, t.Ok v ∧ t.enc v ≠ []) (fuel : Nat)
    (hf : (l.flatMap t.enc).length ≤ fuel) {r : RBuffer} (h1 : slicable t r.skip) (h2 : r.c ≤ r.p.length)
    (h3 : r.rest = l.flatMap t.enc) :
    ∃ r', Rd.sliceLoop t.unmarshal fuel (l.flatMap t.enc).length r = .ok (l, r') := by
  induction l generalizing fuel r with
  | nil => exact ⟨r, by cases fuel <;> rfl⟩
  | cons v l ih =>
    obtain ⟨hok, hne⟩ := hv v (List.mem_cons_self ..)
    have hpos : 0 < (t.enc v).length := List.length_pos_iff.2 hne
    simp only [List.flatMap_cons] at hf h3 ⊢
    rw [List.length_append] at hf ⊢
    have hpre : t.enc v <+: r.rest := ⟨_, h3.symm⟩
    obtain ⟨s, hs, e⟩ := t.readsSlicable hok r h1 h2 hpre
    cases fuel with
    | zero => omega
    | succ fuel =>
      have hlen : (t.enc v).length + (l.flatMap t.enc).length
          = ((t.enc v).length - 1 + (l.flatMap t.enc).length) + 1 := by omega
      rw [hlen]
      unfold Rd.sliceLoop
      rw [e]
      dsimp only
      have hc : ({ r.adv (t.enc v).length with skip := s } : RBuffer).c - r.c = (t.enc v).length := by
        simp [RBuffer.adv]
      rw [if_neg (by rw [hc]; simp only [RBuffer.adv]; omega), hc, ← hlen, Nat.add_sub_cancel_left]
      have hrest : ({ r.adv (t.enc v).length with skip := s } : RBuffer).rest = l.flatMap t.enc := by
        show List.drop (r.c + (t.enc v).length) r.p = _
        rw [← List.drop_drop]
        show List.drop _ r.rest = _
        rw [h3, List.drop_left]
      obtain ⟨r', e'⟩ := ih (fun v hv' => hv v (List.mem_cons_of_mem _ hv')) fuel (by omega)
        (r := { r.adv (t.enc v).length with skip := s }) hs (RBuffer.adv_le h2 hpre) hrest
      exact ⟨r', by rw [Rd.bind_ok e']; rfl⟩

theorem Alike.nil {α β} {R : α → β → Prop} : Alike R [] [] := ⟨rfl, fun i a b h => by simp at h⟩

theorem Alike.cons {α β} {R : α → β → Prop} {a : α} {b : β} {as bs} (h : R a b) (hs : Alike R as bs) :
    Alike R (a :: as) (b :: bs) := by
  refine ⟨congrArg (· + 1) hs.1, fun i x y hx hy => ?_⟩
  cases i with
  | zero => cases hx; cases hy; exact h
  | succ i => exact hs.2 i x y hx hy

theorem Alike.uncons {α β} {R : α → β → Prop} {a : α} {b : β} {as bs} (h : Alike R (a :: as) (b :: bs)) :
    R a b ∧ Alike R as bs :=
  ⟨h.2 0 a b rfl rfl, Nat.add_right_cancel h.1, fun i x y hx hy => h.2 (i + 1) x y hx hy⟩

theorem Alike.append {α β} {R : α → β → Prop} {as : List α} {bs : List β} {cs ds} (h : Alike R as bs)
    (h' : Alike R cs ds) : Alike R (as ++ cs) (bs ++ ds) := by
  induction as generalizing bs with
  | nil =>
    cases bs with
    | nil => exact h'
    | cons b bs => cases h.1
  | cons a as ih =>
    cases bs with
    | nil => cases h.1
    | cons b bs => exact (h.uncons.1 |> Alike.cons) (ih h.uncons.2)

theorem Alike.flatten {α β} {R : α → β → Prop} {as : List (List α)} {bs : List (List β)} (h : Alike (Alike R) as bs) :
    Alike R as.flatten bs.flatten := by
  induction as generalizing bs with
  | nil =>
    cases bs with
    | nil => exact Alike.nil
    | cons b bs => cases h.1
  | cons a as ih =>
    cases bs with
    | nil => cases h.1
    | cons b bs => exact h.uncons.1.append (ih h.uncons.2)

theorem collect_alike {α β γ} {g : α → Res γ} {R : γ → β → Prop} {xs : List α} {ys : List β}
    (h : Alike (fun x y => ∃ z, g x = .ok z ∧ R z y) xs ys) :
    ∃ zs, collect (xs.map g) = .ok zs ∧ Alike R zs ys := by
  induction xs generalizing ys with
  | nil =>
    cases ys with
    | nil => exact ⟨[], rfl, Alike.nil⟩
    | cons y ys => cases h.1
  | cons x xs ih =>
    cases ys with
    | nil => cases h.1
    | cons y ys =>
      obtain ⟨⟨z, hz, hr⟩, ht⟩ := h.uncons
      obtain ⟨zs, hzs, hrs⟩ := ih ht
      exact ⟨z :: zs, by simp [collect, hz, hzs, bind, Except.bind, pure, Except.pure], hrs.cons hr⟩

theorem alike_map {α β} {R : α → β → Prop} {l : List β} {e : β → α} (h : ∀ b ∈ l, R (e b) b) : Alike R (l.map e) l := by
  induction l with
  | nil => exact Alike.nil
  | cons b l ih => exact Alike.cons (h b (List.mem_cons_self ..)) (ih fun b hb => h b (List.mem_cons_of_mem _ hb))

theorem Alike.map_right {α β γ} {R : α → γ → Prop} {f : β → γ} {as : List α} {bs : List β}
    (h : Alike (fun a b => R a (f b)) as bs) : Alike R as (bs.map f) := by
  refine ⟨by simpa using h.1, fun i a c ha hc => ?_⟩
  rw [List.getElem?_map] at hc
  cases hb : bs[i]? with
  | none => rw [hb] at hc; cases hc
  | some b =>
    rw [hb] at hc
    cases hc
    exact h.2 i a b ha hb

theorem Alike.of_map_right {α β γ} {R : α → γ → Prop} {f : β → γ} {as : List α} {bs : List β}
    (h : Alike R as (bs.map f)) : Alike (fun a b => R a (f b)) as bs := by
  refine ⟨by simpa using h.1, fun i a b ha hb => ?_⟩
  exact h.2 i a (f b) ha (by rw [List.getElem?_map, hb]; rfl)

theorem Alike.imp {α β} {R S : α → β → Prop} {as : List α} {bs : List β} (h : Alike R as bs)
    (hi : ∀ a b, b ∈ bs → R a b → S a b) : Alike S as bs :=
  ⟨h.1, fun i a b ha hb => hi a b (List.mem_of_getElem? hb) (h.2 i a b ha hb)⟩

theorem slices_bounds (es : List (List Byte)) : slices es.flatten (bounds 0 es) = .ok es := by
  have : ∀ n, bounds n es = (starts n es).map (fun (s : Nat) => (s : Int)) ++ [((n + es.flatten.length : Nat) : Int)] := by
    induction es with
    | nil => intro n; simp [bounds, starts]
    | cons e es ih => intro n; simp [bounds, starts, ih, Nat.add_assoc]
  rw [this, ← slices_basket]
  simp

/-- The entries of a branch, one after the other, from the entries of its baskets. -/
theorem getBasket_groups {α γ} {r : Reader} {func : Rd α} {b : Branch} {R : α → γ → Prop} (hb : b.branches = [])
    {groups : List (List γ)} {mk : Slot → Res Chunk} {ss : List Slot} (hc : b.chunks r = .ok (ss.map mk))
    {L : Slot → List γ → Prop} (hs : Alike L ss groups)
    (hi : ∀ s g, g ∈ groups → L s g → ∃ c zs, mk s = .ok c ∧ c.items func = .ok zs ∧ Alike R zs g) :
    ∃ zs, b.getBasket r func = .ok zs ∧ Alike R zs groups.flatten := by
  obtain ⟨zss, h1, h2⟩ := collect_alike (g := fun s => do let c ← mk s; c.items func) (R := Alike R)
    (xs := ss) (ys := groups) (hs.imp fun s g hg hl => by
      obtain ⟨c, zs, e1, e2, e3⟩ := hi s g hg hl
      exact ⟨zs, by rw [e1]; exact e2, e3⟩)
  refine ⟨zss.flatten, ?_, h2.flatten⟩
  unfold Branch.getBasket
  rw [hb]
  simp only [hc, bind, Except.bind, List.map_map, Function.comp_def] at h1 ⊢
  rw [h1]
  rfl

/-- A branch of objects. -/
theorem getBasket_objects {α γ} {r : Reader} {func : Rd α} {b : Branch} {e : BranchElem} {R : α → γ → Prop}
    (hb : b.branches = []) (he : b.elem = some e) {h : Int} (hh : e.header r b.data.named.name = .ok h)
    {groups : List (List γ)} {enc : γ → List Byte}
    (hk : Keeps r b.data Slot.isObject (groups.map fun g => g.map enc))
    (hi : ∀ g ∈ groups, ∀ x ∈ g, ∃ z, readWith (do Rd.setSkip (some h); func) (enc x) = .ok z ∧ R z x) :
    ∃ zs, b.getBasket r func = .ok zs ∧ Alike R zs groups.flatten := by
  obtain ⟨ss, h1, h2⟩ := hk.table
  refine getBasket_groups hb (ss := ss) (mk := fun s => do
      let (bk, bd) ← s.read r
      bd.chunkElement (e.header r b.data.named.name) s.leaf (s.leaf.sized s.size bk.nevSize)) ?_ h2.of_map_right ?_
  · unfold Branch.chunks
    rw [he]
    simp only [BranchElem.chunks, h1, hk.outside, embeddedElement, bind, Except.bind, List.nil_append]
    rfl
  · rintro s g hg ⟨⟨a, b', c, d, hl⟩, bk, n, hrd⟩
    obtain ⟨zs, e1, e2⟩ := collect_alike (g := fun buf => (readWith (do Rd.setSkip (some h); func) buf).unwrap)
      (R := R) (xs := g.map enc) (ys := g) (alike_map fun x hx => by
        obtain ⟨z, f1, f2⟩ := hi g hg x hx
        exact ⟨z, by rw [f1]; rfl, f2⟩)
    refine ⟨.irregular n (g.map enc) h, zs, ?_, e1, e2⟩
    simp only [hrd, bind, Except.bind, hl, BasketData.chunkElement, hh, slices_bounds]
    rfl

theorem readWith_skip {α} {func : Rd α} {s : Int} {bs rest : List Byte} {a : α} {P : Option Int → Prop}
    (h : ReadsE (· = some s) P func bs a) : readWith (do Rd.setSkip (some s); func) (bs ++ rest) = .ok a := by
  have := (ReadsE.bind (b1 := []) (P := fun _ => True) (f := fun _ => func) (ReadsE.setSkip (some s)) h)
    { p := bs ++ rest, c := 0, offset := 0, refs := [], skip := none } trivial (Nat.zero_le _) ⟨rest, by simp [RBuffer.rest]⟩
  obtain ⟨s', -, e⟩ := this
  unfold readWith
  rw [e]

theorem set_reads {t : Ty} [DecidableEq t.Val] {hdr : List Byte} {l : List t.Val} (hh : IsHeader hdr)
    (hl : l.length < 2 ^ 31) (hv : ∀ v ∈ l, t.Ok v) :
    ReadsE (· = some (hdr.length : Int)) (fun _ => True) (Rd.set t.unmarshal) (hdr ++ countedBytes t l)
      (l.foldl setInsert []) := by
  unfold countedBytes
  rw [flatMap_congr' fun v hv' => marshalled_eq (hv v hv')]
  refine ReadsE.bind (ReadsE.header hh fun _ h => h) ?_
  refine ReadsE.bind ((Reads.i32_ofNat hl).free (SkipFree.sint 4)) ?_
  rw [if_neg (by omega)]
  refine (ReadsE.bind (b1 := []) (ReadsE.setSkip none) ?_).congr (List.nil_append _)
  refine (ReadsE.bind (b2 := []) (f := fun l : List t.Val => pure (l.foldl setInsert []))
    ((Reads.times fun a ha => t.reads_unmarshal a (hv a ha)).toE (Q := fun _ => True) trivial) (ReadsE.pure _)).congr (List.append_nil _)

theorem zip_parts {α β} (l : List (α × β)) : (l.map Prod.fst).zip (l.map Prod.snd) = l := by
  induction l with
  | nil => rfl
  | cons p l ih => simp [ih]

theorem map_reads {k v : Ty} [DecidableEq k.Val] (hk : k.isMember = true) (hv : v.isMember = true) {hdr : List Byte}
    (hh : IsHeader hdr) {m : MapLayout k v} (hm : m.Ok) :
    readWith (do Rd.setSkip (some (hdr.length : Int)); Rd.map k.unmarshal v.unmarshal) (hdr ++ m.bytes) =
      .ok (m.pairs.foldl mapInsert []) := by
  obtain ⟨kh, vh, pairs, rest⟩ := m
  have hlen := hm.few
  dsimp only at hlen
  have hcount : ∀ {β : Type} {f : Int → Rd β} {b2 : List Byte} {x : β} {P Q : Option Int → Prop},
      ReadsE P Q (f (pairs.length : Int)) b2 x → ReadsE P Q (Rd.i32 >>= f) (beBytes 4 pairs.length ++ b2) x :=
    fun h => ReadsE.bind ((Reads.i32_ofNat hlen).free (SkipFree.sint 4)) h
  by_cases hp : pairs = []
  · subst hp
    have : ReadsE (· = some (hdr.length : Int)) (fun _ => True) (Rd.map k.unmarshal v.unmarshal)
        (hdr ++ (beBytes 4 ([] : List (k.Val × v.Val)).length ++ [])) [] := by
      refine ReadsE.bind (ReadsE.header hh fun _ h => h) (hcount ?_)
      intro r h1 h2 h3
      exact ⟨some 6, trivial, rfl⟩
    have := readWith_skip (rest := kh ++ (vh ++ rest)) this
    simpa [MapLayout.bytes, List.append_assoc] using this
  · have hkeys := readsMembers hk (l := pairs.map Prod.fst) (by simpa using hp) (hm.keyHeader hp)
      (fun a ha => by
        obtain ⟨p, h1, rfl⟩ := List.mem_map.1 ha
        exact (hm.values p h1).1)
    have hvals := readsMembers hv (l := pairs.map Prod.snd) (by simpa using hp) (hm.valHeader hp)
      (fun a ha => by
        obtain ⟨p, h1, rfl⟩ := List.mem_map.1 ha
        exact (hm.values p h1).2)
    have hall : ReadsE (· = some (hdr.length : Int)) (fun _ => True) (Rd.map k.unmarshal v.unmarshal)
        (hdr ++ (beBytes 4 pairs.length ++ ((kh ++ (pairs.map Prod.fst).flatMap k.enc) ++
          (vh ++ (pairs.map Prod.snd).flatMap v.enc)))) (pairs.foldl mapInsert []) := by
      refine ReadsE.bind (ReadsE.header hh fun _ h => h) (hcount ?_)
      rw [if_neg (by omega)]
      refine (ReadsE.bind (b1 := []) (ReadsE.setSkip (some 6)) ?_).congr (List.nil_append _)
      rw [List.length_map] at hkeys hvals
      refine ReadsE.bind hkeys ?_
      refine (ReadsE.bind (b1 := []) (ReadsE.setSkip (some 6)) ?_).congr (List.nil_append _)
      refine (ReadsE.bind (b2 := []) hvals ?_).congr (List.append_nil _)
      rw [zip_parts]
      exact ReadsE.pure _
    have := readWith_skip (rest := rest) hall
    rw [← this]
    congr 1
    unfold MapLayout.bytes
    simp only [List.flatMap_map]
    rw [flatMap_congr' (f := fun p : k.Val × v.Val => marshalled k p.1) fun p hp => marshalled_eq (hm.values p hp).1,
      flatMap_congr' (f := fun p : k.Val × v.Val => marshalled v p.2) fun p hp => marshalled_eq (hm.values p hp).2]
    simp [List.append_assoc]

theorem slice_reads {t : Ty} {l : List t.Val} (hv : ∀ v ∈ l, t.Ok v ∧ marshalled t v ≠ []) :
    readWith (do Rd.setSkip (some 0); Rd.slice t.unmarshal) (l.flatMap (marshalled t)) = .ok l := by
  rw [flatMap_congr' fun v hv' => marshalled_eq (hv v hv').1]
  have hv' : ∀ v ∈ l, t.Ok v ∧ t.enc v ≠ [] := fun v h => ⟨(hv v h).1, marshalled_eq (hv v h).1 ▸ (hv v h).2⟩
  generalize hr : RBuffer.mk (l.flatMap t.enc) 0 0 [] (some 0) = r
  have h1 : Rd.setSkip (some 0) { p := l.flatMap t.enc, c := 0, offset := 0, refs := [], skip := none } = .ok ((), r) := by
    rw [← hr]; rfl
  obtain ⟨s, hs, h2⟩ := ReadsE.noHeader r (by rw [← hr]; exact Or.inr rfl) (by rw [← hr]; exact Nat.zero_le _)
    (List.nil_prefix)
  have hr0 : r.p.length - r.c = (l.flatMap t.enc).length ∧ r.rest = l.flatMap t.enc ∧ r.c ≤ r.p.length := by
    rw [← hr]; exact ⟨rfl, rfl, Nat.zero_le _⟩
  obtain ⟨r', h3⟩ := sliceLoop_reads l hv' (l.flatMap t.enc).length (Nat.le_refl _)
    (r := { r.adv ([] : List Byte).length with skip := s }) (Or.inr hs) hr0.2.2 hr0.2.1
  have h4 : Rd.slice t.unmarshal r = .ok (l, r') := by
    refine (Rd.bind_ok (f := fun _ => (fun r => Rd.sliceLoop t.unmarshal (r.p.length - r.c) (r.p.length - r.c) r : Rd _))
      h2).trans ?_
    have : (r.adv ([] : List Byte).length).p.length - (r.adv ([] : List Byte).length).c = (l.flatMap t.enc).length := hr0.1
    rw [← h3]
    dsimp only
    rw [this]
  unfold readWith
  rw [Rd.bind_ok h1, h4]

/-- `m` takes exactly `k` bytes, or fails. -/
def Takes {α} (k : Nat) (m : Rd α) : Prop :=
  ∀ r : RBuffer, (r.p.length < r.c + k → ∃ e, m r = .error e) ∧
    (r.c + k ≤ r.p.length → ∃ a, m r = .ok (a, r.adv k))

theorem takes_take (k : Nat) : Takes k (Rd.take k) := by
  intro r
  unfold Rd.take
  refine ⟨fun h => ⟨_, if_neg (by omega)⟩, fun h => ⟨_, if_pos h⟩⟩

theorem Takes.map {α β} {k : Nat} {m : Rd α} (h : Takes k m) (f : α → β) : Takes k (do let a ← m; pure (f a)) := by
  intro r
  refine ⟨fun hr => ?_, fun hr => ?_⟩
  · obtain ⟨e, he⟩ := (h r).1 hr
    exact ⟨e, Rd.bind_err he⟩
  · obtain ⟨a, ha⟩ := (h r).2 hr
    exact ⟨f a, Rd.bind_ok ha⟩

theorem takes_uint (k : Nat) : Takes k (Rd.uint k) := (takes_take k).map _

theorem takes_sint (k : Nat) : Takes k (Rd.sint k) := (takes_take k).map _

theorem sliceLoop_cut {α} {k : Nat} {m : Rd α} (hk : 0 < k) (hm : Takes k m) (fuel : Nat) :
    ∀ (n : Nat) (r : RBuffer), n ≤ fuel → r.c + n = r.p.length → n % k ≠ 0 → Rd.sliceLoop m fuel n r = .error .panic := by
  induction fuel with
  | zero =>
    intro n r h1 h2 h3
    have : n = 0 := by omega
    subst this
    exact absurd (Nat.zero_mod k) h3
  | succ fuel ih =>
    intro n r h1 h2 h3
    cases n with
    | zero => exact absurd (Nat.zero_mod k) h3
    | succ n =>
      unfold Rd.sliceLoop
      by_cases hc : r.c + k ≤ r.p.length
      · obtain ⟨a, ha⟩ := (hm r).2 hc
        rw [ha]
        dsimp only
        have hadv : (r.adv k).c - r.c = k := by simp [RBuffer.adv]
        rw [if_neg (by rw [hadv]; simp only [RBuffer.adv]; omega), hadv]
        have hrest := ih (n + 1 - k) (r.adv k) (by omega) (by simp only [RBuffer.adv]; omega) (by
          rw [← Nat.mod_eq_sub_mod (by omega)]
          exact h3)
        exact Rd.bind_err hrest
      · obtain ⟨e, he⟩ := (hm r).1 (by omega)
        rw [he]

theorem slice_cut {α} {k : Nat} {m : Rd α} (hk : 0 < k) (hm : Takes k m) {buf : List Byte} (h : buf.length % k ≠ 0) :
    readWith (do Rd.setSkip (some 0); Rd.slice m) buf = .error .panic := by
  generalize hr : RBuffer.mk buf 0 0 [] (some 0) = r
  have h1 : Rd.setSkip (some 0) { p := buf, c := 0, offset := 0, refs := [], skip := none } = .ok ((), r) := by
    rw [← hr]; rfl
  obtain ⟨s, hs, h2⟩ := ReadsE.noHeader r (by rw [← hr]; exact Or.inr rfl) (by rw [← hr]; exact Nat.zero_le _)
    (List.nil_prefix)
  have hr0 : r.p.length - r.c = buf.length ∧ r.c + buf.length = r.p.length := by
    rw [← hr]; exact ⟨rfl, Nat.zero_add _⟩
  have h3 := sliceLoop_cut hk hm buf.length buf.length { r.adv ([] : List Byte).length with skip := s } (Nat.le_refl _)
    hr0.2 h
  have h4 : Rd.slice m r = .error .panic := by
    refine (Rd.bind_ok (f := fun _ => (fun r => Rd.sliceLoop m (r.p.length - r.c) (r.p.length - r.c) r : Rd _)) h2).trans ?_
    have : (r.adv ([] : List Byte).length).p.length - (r.adv ([] : List Byte).length).c = buf.length := hr0.1
    rw [← h3]
    dsimp only
    rw [this]
  unfold readWith
  rw [Rd.bind_ok h1, h4]

end Verif
