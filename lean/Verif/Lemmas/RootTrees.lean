import Verif.Spec.RootTrees
import Verif.Lemmas.TreeRecords
import Verif.Lemmas.RootBaskets
import Verif.Model.BranchLookup
namespace Verif

/-! ### Parts -/

theorem and_byteCountMask_lt {n : Nat} (h : n < 2 ^ 30) : n &&& kByteCountMask = 0 := by
  have h1 : kByteCountMask = 2 ^ 30 * 1 := rfl
  rw [h1, Nat.and_comm]
  apply Nat.eq_of_testBit_eq
  intro i
  rw [Nat.testBit_and, Nat.mul_one, Nat.testBit_two_pow, Nat.zero_testBit]
  by_cases hi : 30 = i
  · subst hi; rw [Nat.testBit_lt_two_pow h]; simp
  · simp [hi]

theorem Emit.pointer {ο ne K} {p : Option Nat} (h : PointerOk p) (build : Str → Option (Rd ο)) :
    Emit ne K K (rootPointer p) (fun _ => ()) (Rd.objectAny build) none := by
  obtain ⟨n, hp, hn, h1⟩ : ∃ n, rootPointer p = Wr.u32 n ∧ n < 2 ^ 30 ∧ n ≠ 1 := by
    cases p with
    | none => exact ⟨0, rfl, by decide, by decide⟩
    | some n => have := h n rfl; exact ⟨n, rfl, by omega, by omega⟩
  rw [hp]
  unfold Rd.objectAny
  refine Emit.thenPure (Emit.u32 (show n < 2 ^ 32 by omega)) ?_
  rw [if_pos (.inl (and_byteCountMask_lt hn))]
  unfold Rd.anyTag
  rw [if_pos (and_classMask_lt (by omega))]
  by_cases h0 : n = kNullTag
  · rw [if_pos h0]
  · rw [if_neg h0, if_neg h1]

theorem Emit.when {β} {ne K c} [Decidable c] {m : Wr Unit} {rd : Rd β} {v} (d : β)
    (h : Emit ne K K m (fun _ => ()) rd v) :
    Emit ne K K (Wr.when c m) (fun _ => ()) (if c then rd else Pure.pure d) (if c then v else d) := by
  unfold Wr.when
  by_cases hc : c
  · simp only [if_pos hc]; exact h
  · simp only [if_neg hc]; exact Emit.pure rfl

theorem Emit.whenBind {α β γ} {ne K K' c} [Decidable c] {m : Wr Unit} {rd : Rd β} {v d : β} {f : Unit → Wr α} {ret : Nat → α}
    {g : β → Rd γ} {u} {r : α} (h : Emit ne K K m (fun _ => ()) rd v)
    (h2 : Emit ne K K' (f ()) ret (g (if c then v else d)) u) (hret : ∀ n, ret n = r) :
    Emit ne K K' (Wr.when c m >>= f) ret (if c then rd >>= g else Pure.pure d >>= g) u := by
  have := Emit.bind (Emit.when (c := c) d h) h2 hret
  by_cases hc : c
  · simp only [if_pos hc] at this ⊢; exact this
  · simp only [if_neg hc] at this ⊢; exact this

theorem Emit.whenBind' {α β γ} {ne K K' c} [Decidable c] {m : Wr Unit} {rd : Rd β} {v d : β} {f : Unit → Wr α} {ret : Nat → α}
    {g : β → Rd γ} {u} {r : α} (h : c → Emit ne K K m (fun _ => ()) rd v)
    (h2 : Emit ne K K' (f ()) ret (g (if c then v else d)) u) (hret : ∀ n, ret n = r) :
    Emit ne K K' (Wr.when c m >>= f) ret (if c then rd >>= g else Pure.pure d >>= g) u := by
  unfold Wr.when
  by_cases hc : c
  · simp only [if_pos hc] at h2 ⊢; exact Emit.bind (h hc) h2 hret
  · simp only [if_neg hc] at h2 ⊢; exact Emit.bind (Emit.pure rfl) h2 hret

theorem Emit.rootArray {ο} {ne K K'} {any : Rd (Option ο)} {n : Nat} {items : Wr Unit} {vals : List (Option ο)}
    (h : Emit true K K' items (fun _ => ()) (Rd.times n any) vals) (hlen : n < 2 ^ 31) :
    Emit ne K K' (Verif.rootArray n items) (fun _ => ()) (TObjArray.unmarshal any)
      (TObject.default.afterRead, some [], 0, vals.filterMap id) := by
  unfold Verif.rootArray TObjArray.unmarshal
  refine Emit.drop (ret := id) (Emit.framed (by decide) fun hd hv => ?_)
  have h2 : 2 < hd.vers := by rw [hv]; decide
  have h1 : 1 < hd.vers := by omega
  rw [Rd.ensureMax_eq (by rw [hv]; decide), Rd.pure_bind]
  simp only [h1, h2, if_true]
  refine Emit.bind (c := ()) (Emit.obj TObject.default_inRange) ?_ fun _ => rfl
  refine Emit.bind (c := ()) (Emit.last (Emit.string (s := []) (by decide) utf8_nil)) ?_ fun _ => rfl
  refine Emit.bind (c := ()) (Emit.i32 (InI4_nat hlen)) ?_ fun _ => rfl
  refine Emit.bind (c := ()) (Emit.i32 (v := 0) (by decide)) ?_ fun _ => rfl
  exact Emit.last h

theorem Emit.rootArrayOf {α} {ne K K'} {any : Rd (Option Obj)} {conv : Obj → Option α} {n : Nat} {items : Wr Unit}
    {vals : List (Option Obj)} {l : List α}
    (h : Emit true K K' items (fun _ => ()) (Rd.times n any) vals) (hlen : n < 2 ^ 31)
    (hv : (vals.filterMap id).mapM conv = some l) :
    Emit ne K K' (Verif.rootArray n items) (fun _ => ()) (Rd.arrayOf any conv) l := by
  refine Emit.thenPure (Emit.rootArray h hlen) ?_
  simp only [hv]
  rfl

theorem Emit.rootTable {ne K} {put : Int → Wr Unit} {get : Rd Int} {l : List Int} {m keep : Int}
    (hput : ∀ i ∈ l, Emit ne K K (put i) (fun _ => ()) get i) (hl : (l.length : Int) = m)
    (h0 : 0 ≤ keep) (hk : keep ≤ m) :
    Emit ne K K (Verif.rootTable put l) (fun _ => ()) (Rd.table get m keep) (l.take keep.toNat) := by
  unfold Verif.rootTable Rd.table
  refine Emit.bind (c := ()) (Emit.i8 (v := 1) (by decide)) ?_ fun _ => rfl
  rw [if_neg (by omega)]
  refine Emit.thenPure (v := l) (Emit.nums (by omega) hput) ?_
  rw [if_neg (by omega)]

/-! ### Leaves -/

theorem RootLeaf.emitBase {l : RootLeaf} (h : l.Ok) {K} {fuel : Nat} :
    Emit true K K l.base (fun _ => ()) (TLeaf.unmarshal (readAny (fuel + 1)) Obj.isLeafElement) l.leaf.tleaf := by
  have hs : l.leaf.tleaf.Storable := by
    have h := h.1
    cases hl : l.leaf <;> rw [hl] at h
    · exact h.elim
    · exact h.2.1
    · exact h.2.1
  unfold RootLeaf.base TLeaf.unmarshal
  generalize l.leaf.tleaf = t at hs
  refine Emit.drop (ret := id) (Emit.framed (by decide) fun hd hv => ?_)
  rw [Rd.ensureMax_eq (by rw [hv]; decide), Rd.pure_bind]
  refine Emit.bind (c := ()) (Emit.namedFits hs.named) ?_ fun _ => rfl
  refine Emit.bind (c := ()) (Emit.i32 hs.len) ?_ fun _ => rfl
  refine Emit.bind (c := ()) (Emit.i32 hs.etype) ?_ fun _ => rfl
  refine Emit.bind (c := ()) (Emit.i32 hs.offset) ?_ fun _ => rfl
  refine Emit.bind (c := ()) (Emit.bool _) ?_ fun _ => rfl
  refine Emit.bind (c := ()) (Emit.bool _) ?_ fun _ => rfl
  refine Emit.thenPure (Emit.pointer h.2 _) ?_
  simp only [if_neg hs.lenPos]
  have := hs.count
  obtain ⟨named, len, etype, offset, hasRange, unsigned, count⟩ := t
  obtain rfl : count = false := this
  rfl

theorem RootLeaf.emit {l : RootLeaf} (h : l.Ok) (fuel : Nat) :
    EmitS true [l.addr] (Wr.objectAny l.obj) id (readAny (fuel + 2)) (some (.leaf l.leaf)) := by
  refine EmitS.objectAny (S := []) (ret := id) (o := l.obj)
    (rd := do let x ← l.leaf.rd (readAny (fuel + 1)); pure (Obj.leaf x)) ?_ (by simp) ?_ l.leaf.cls_ok
  · intro K _
    refine Emit.congrK (K' := K) (Emit.last ?_) (fun _ => Iff.rfl) (by simp)
    have hb := RootLeaf.emitBase h (K := K) (fuel := fuel)
    have hst := h.1
    unfold RootLeaf.obj
    cases hl : l.leaf with
    | base t => rw [hl] at hst; exact hst.elim
    | element rvers t lid ltype =>
      rw [hl] at hst hb
      obtain ⟨hr, ht, h1, h2⟩ := hst
      unfold Leaf.rd Leaf.unmarshalElement
      refine Emit.framed (by decide) fun hd hv => ?_
      rw [Rd.ensureMax_eq (by rw [hv]; decide), Rd.pure_bind]
      refine Emit.bind (c := ()) hb ?_ fun _ => rfl
      refine Emit.bind (c := ()) (Emit.i32 h1) ?_ fun _ => rfl
      refine Emit.thenPure (Emit.i32 h2) ?_
      rw [hv, hr]; rfl
    | var k rvers t min max =>
      rw [hl] at hst hb
      obtain ⟨hr, ht, h1, h2⟩ := hst
      unfold Leaf.rd Leaf.unmarshalVar
      refine Emit.framed (by decide) fun hd hv => ?_
      rw [Rd.ensureMax_eq (by rw [hv]; decide), Rd.pure_bind]
      refine Emit.bind (c := ()) hb ?_ fun _ => rfl
      refine Emit.bind (c := ()) (LeafKind.emit h1) ?_ fun _ => rfl
      refine Emit.thenPure (LeafKind.emit h2) ?_
      rw [hv, hr]; rfl
  · exact l.leaf.unmarshalOf_cls _

/-! ### Baskets -/

theorem KeptBasket.basket_eq {k : KeptBasket} (h : k.Ok) : k.basket = k.afterRead := by
  unfold KeptBasket.basket
  rw [readWith_reads (KeptBasket.reads h) (List.append_nil _).symm]

theorem keptSlot_emit {p : Option (Nat × KeptBasket)} (h : ∀ a k, p = some (a, k) → k.Ok) (fuel : Nat) :
    EmitS true (p.map Prod.fst).toList (keptSlot p) (fun _ => ()) (readAny (fuel + 1))
      (p.map fun q => .basket q.2.basket) := by
  cases p with
  | none =>
    intro K _
    exact Emit.congrK (Emit.pointer (p := none) (fun _ h => by cases h) _) (fun _ => Iff.rfl) (by simp)
  | some q =>
    obtain ⟨a, k⟩ := q
    have hk := h a k rfl
    refine EmitS.drop (EmitS.objectAny (S := []) (ret := id)
      (o := { cls := b! "TBasket", addr := a, marshal := do
                Wr.bytes k.record
                pure k.record.length })
      (build := unmarshalOf (readAny fuel)) (rd := do let b ← Basket.unmarshal; pure (Obj.basket b))
      ?_ (by simp) rfl (by decide : ClassNameOk (b! "TBasket")))
    intro K _
    refine Emit.congrK (K' := K) (Emit.last (v := k.basket) ?_) (fun _ => Iff.rfl) (by simp)
    refine Emit.lift' (bs := k.record) (a := k.record.length) ?_ (k.basket_eq hk ▸ KeptBasket.reads hk) rfl
    exact (Writes.bind (b2 := []) (f := fun _ => (Pure.pure k.record.length : Wr Nat)) (Writes.bytes k.record)
      (Writes.pure _)).congr (List.append_nil _)

/-! ### Branches -/

/-- What the reader of the class of a branch does. -/
def BranchShape.rd (s : BranchShape) (any : Rd (Option Obj)) : Rd Branch :=
  match s.elem with
  | none => Branch.unmarshalBase any
  | some _ => Branch.unmarshalElement any

theorem BranchShape.unmarshalOf_cls (s : BranchShape) (any : Rd (Option Obj)) :
    unmarshalOf any s.cls = some (do let x ← s.rd any; pure (.branch x)) := by
  unfold BranchShape.cls BranchShape.rd
  cases s.elem <;> rfl

theorem BranchShape.cls_ok (s : BranchShape) : ClassNameOk s.cls := by
  unfold BranchShape.cls
  cases s.elem <;> (simp only []; decide)

theorem filterMap_toList_flatMap {α β} (f : α → Option β) (l : List α) : l.flatMap (fun a => (f a).toList) = l.filterMap f := by
  induction l with
  | nil => rfl
  | cons a l ih =>
    rw [List.flatMap_cons, ih, List.filterMap_cons]
    cases f a <;> rfl

theorem BranchShape.emitWrite {s : BranchShape} (h : s.Ok) {n : Nat} {sub : Wr Unit} {S : List Nat} {subs : List Branch}
    {fuel : Nat} (hn : n < 2 ^ 31) (hlen : subs.length = n)
    (hsub : EmitS true S sub (fun _ => ()) (Rd.times n (readAny (fuel + 2))) (subs.map fun b => some (.branch b)))
    (hnd : (S ++ (s.leaves.map RootLeaf.addr ++ s.kept.filterMap (Option.map Prod.fst))).Nodup) :
    EmitS true (S ++ (s.leaves.map RootLeaf.addr ++ s.kept.filterMap (Option.map Prod.fst))) (s.write n sub) id
      (BranchData.unmarshal (readAny (fuel + 2))) (s.seen (n ≠ 0), subs) := by
  intro K hK
  have hv := h.vers
  have hwb := h.writeBasket
  have hmb := h.maxBaskets
  unfold BranchShape.write BranchData.unmarshal
  refine Emit.framed (by unfold InI; omega) fun hd hvers => ?_
  rw [Rd.ensureMax_eq (by rw [hvers]; exact hv.2), Rd.pure_bind, if_pos (by rw [hvers]; exact hv.1), hvers]
  unfold BranchData.unmarshalNew
  refine Emit.bind (c := ()) (Emit.namedFits h.named) ?_ fun _ => rfl
  refine Emit.bind (c := ()) (Emit.attFill h.attfill) ?_ fun _ => rfl
  refine Emit.bind (c := ()) (Emit.i32 h.compress) ?_ fun _ => rfl
  refine Emit.bind (c := ()) (Emit.i32 h.basketSize) ?_ fun _ => rfl
  refine Emit.bind (c := ()) (Emit.i32 h.entryOffsetLen) ?_ fun _ => rfl
  refine Emit.bind (c := ()) (Emit.i32 (by unfold InI; omega)) ?_ fun _ => rfl
  refine Emit.bind (c := ()) (Emit.i64 h.entryNumber) ?_ fun _ => rfl
  refine Emit.whenBind (r := ()) (Emit.io h.iobits) ?_ fun _ => rfl
  refine Emit.bind (c := ()) (Emit.i32 h.offset) ?_ fun _ => rfl
  refine Emit.bind (c := ()) (Emit.i32 (by unfold InI; omega)) ?_ fun _ => rfl
  refine Emit.bind (c := ()) (Emit.i32 h.splitLevel) ?_ fun _ => rfl
  refine Emit.bind (c := ()) (Emit.i64 h.entries) ?_ fun _ => rfl
  refine Emit.whenBind (r := ()) (Emit.i64 h.firstEntry) ?_ fun _ => rfl
  refine Emit.bind (c := ()) (Emit.i64 h.totBytes) ?_ fun _ => rfl
  refine Emit.bind (c := ()) (Emit.i64 h.zipBytes) ?_ fun _ => rfl
  have hd1 := List.nodup_append.1 hnd
  have hd2 := List.nodup_append.1 hd1.2.1
  -- the branches inside
  refine Emit.bind (c := ()) (Emit.rootArrayOf (conv := Obj.toBranch) (l := subs)
    (hsub K fun a ha => hK a (List.mem_append_left _ ha)) hn ?_) ?_ fun _ => rfl
  · have e : (subs.map fun b => some (Obj.branch b)).filterMap id = subs.map Obj.branch := by
      simp [List.filterMap_map, Function.comp_def]
    rw [e]
    exact mapM_some (f := Obj.toBranch) (g := Obj.branch) (fun _ => rfl) _
  -- the leaves
  have hleaves := EmitS.each (f := fun l : RootLeaf => Wr.drop (Wr.objectAny l.obj)) (rd := readAny (fuel + 2))
    (S := fun l => [l.addr]) (v := fun l => some (Obj.leaf l.leaf)) (l := s.leaves)
    (fun l hl => (RootLeaf.emit (h.leaves l hl) fuel).drop) (by
      have := hd2.1
      rw [List.nodup_iff_pairwise_ne, List.pairwise_map] at this
      exact this.imp fun h a ha hb => h (by simp at ha hb; rw [← ha, hb]))
  have e1 : s.leaves.flatMap (fun l => [l.addr]) = s.leaves.map RootLeaf.addr := by
    rw [List.map_eq_flatMap]
  rw [e1] at hleaves
  refine Emit.bind (c := ()) (Emit.rootArrayOf (conv := Obj.toLeaf) (l := s.leaves.map RootLeaf.leaf)
    (hleaves (fun a => K a ∨ a ∈ S) ?_) h.fewLeaves ?_) ?_ fun _ => rfl
  · rintro a ha (h | h)
    · exact hK a (by simp only [List.mem_append]; exact .inr (.inl ha)) h
    · exact hd1.2.2 a h a (List.mem_append_left _ ha) rfl
  · have e : (s.leaves.map fun l => some (Obj.leaf l.leaf)).filterMap id = (s.leaves.map RootLeaf.leaf).map Obj.leaf := by
      simp [List.filterMap_map, Function.comp_def]
    rw [e]
    exact mapM_some (f := Obj.toLeaf) (g := Obj.leaf) (fun _ => rfl) _
  -- the baskets
  have hkept := EmitS.each (f := keptSlot) (rd := readAny (fuel + 2))
    (S := fun p => (p.map Prod.fst).toList) (v := fun p => p.map fun q => Obj.basket q.2.basket) (l := s.kept)
    (fun p hp => keptSlot_emit (fun a k hpk => h.kept a k (hpk ▸ hp)) (fuel + 1)) (by
      refine pairwise_of_nodup_flatMap ?_
      rw [filterMap_toList_flatMap]
      exact hd2.2.1)
  rw [filterMap_toList_flatMap] at hkept
  refine Emit.bind (c := ()) (Emit.rootArrayOf (conv := Obj.toBasket)
    (l := s.kept.filterMap (Option.map fun p => p.2.basket))
    (hkept (fun a => (K a ∨ a ∈ S) ∨ a ∈ s.leaves.map RootLeaf.addr) ?_) h.fewKept ?_) ?_ fun _ => rfl
  · rintro a ha ((h | h) | h)
    · exact hK a (by simp only [List.mem_append]; exact .inr (.inr ha)) h
    · exact hd1.2.2 a h a (List.mem_append_right _ ha) rfl
    · exact hd2.2.2 a h a ha rfl
  · have e : (s.kept.map fun p => p.map fun q => Obj.basket q.2.basket).filterMap id =
        (s.kept.filterMap (Option.map fun p => p.2.basket)).map Obj.basket := by
      rw [List.filterMap_map, List.map_filterMap]
      congr 1
      funext p
      cases p <;> rfl
    rw [e]
    exact mapM_some (f := Obj.toBasket) (g := Obj.basket) (fun _ => rfl) _
  refine Emit.bind (c := ()) (Emit.rootTable (fun i hi => Emit.i32 (h.bytes i hi)) h.bytesLen hwb.1 (by omega)) ?_ fun _ => rfl
  refine Emit.bind (c := ()) (Emit.rootTable (fun i hi => Emit.i64 (h.entry i hi)) h.entryLen (by omega) (by omega)) ?_ fun _ => rfl
  refine Emit.bind (c := ()) (Emit.rootTable (fun i hi => Emit.i64 (h.seek i hi)) h.seekLen hwb.1 (by omega)) ?_ fun _ => rfl
  refine Emit.congrK (Emit.thenPure (Emit.text h.fname) ?_) (fun _ => Iff.rfl) (fun a => by simp [or_assoc])
  rw [show (s.data.writeBasket + 1).toNat = s.data.writeBasket.toNat + 1 by omega]
  unfold BranchData.fixSplit BranchShape.seen
  have hne : (subs ≠ []) ↔ n ≠ 0 := by
    rw [← hlen, ne_eq, ne_eq, List.length_eq_zero_iff]
  by_cases h1 : s.data.splitLevel = 0 <;> by_cases h2 : n ≠ 0 <;>
    simp [h1, h2, hne]

theorem RootElement.emitVersion {e : RootElement} (h : e.Ok) {K} {γ} {f : Unit → Wr Unit} {g : Int → Rd γ} {u} {K'}
    (h2 : Emit true K K' (f ()) (fun _ => ()) (g e.elem.clsver) u) :
    Emit true K K' (e.putVersion >>= f) (fun _ => ())
      (if 10 ≤ e.vers then Rd.i16 >>= g else (Rd.u32 >>= fun v => Pure.pure (toSigned 2 (v % 2 ^ 16))) >>= g) u := by
  rw [Rd.bind_assoc]
  unfold RootElement.putVersion
  by_cases hc : 10 ≤ e.vers
  · simp only [if_pos hc]
    exact Emit.bind (c := ()) (Emit.i16 h.elem.clsver) h2 fun _ => rfl
  · simp only [if_neg hc]
    have hcl := h.elem.clsver
    refine Emit.bind (c := ()) (v := wrapI 4 e.elem.clsver) (Emit.u32 (v := wrapI 4 e.elem.clsver) ?_) ?_ fun _ => rfl
    · unfold InU wrapI; omega
    · rw [Rd.pure_bind]
      have : toSigned 2 (wrapI 4 e.elem.clsver % 2 ^ 16) = e.elem.clsver := by
        unfold InI at hcl
        unfold wrapI toSigned
        split <;> omega
      rw [this]
      exact h2

theorem BranchShape.emitMarshal {s : BranchShape} (h : s.Ok) {n : Nat} {sub : Wr Unit} {S : List Nat} {subs : List Branch}
    {fuel : Nat} (hn : n < 2 ^ 31) (hlen : subs.length = n)
    (hsub : EmitS true S sub (fun _ => ()) (Rd.times n (readAny (fuel + 2))) (subs.map fun b => some (.branch b)))
    (hnd : (S ++ (s.leaves.map RootLeaf.addr ++ s.kept.filterMap (Option.map Prod.fst))).Nodup) :
    EmitS true (S ++ (s.leaves.map RootLeaf.addr ++ s.kept.filterMap (Option.map Prod.fst))) (s.marshal n sub) id
      (s.rd (readAny (fuel + 2))) (.mk (s.seen (n ≠ 0)) (s.elem.map RootElement.elem) subs) := by
  have hw := BranchShape.emitWrite h hn hlen hsub hnd
  unfold BranchShape.marshal BranchShape.rd
  cases he : s.elem with
  | none => exact hw.thenPure rfl
  | some e =>
    have hv := (h.elem e he).vers
    have hel := (h.elem e he).elem
    intro K hK
    unfold Branch.unmarshalElement
    refine Emit.framed (by unfold InI; omega) fun hd hvers => ?_
    have h1 : 1 < e.vers := by omega
    rw [Rd.ensureMax_eq (by rw [hvers]; exact hv.2), Rd.pure_bind, hvers]
    simp only [h1, if_true]
    refine Emit.bind (c := ()) (hw K hK).drop ?_ fun _ => rfl
    unfold RootElement.write
    refine Emit.bind (c := ()) (Emit.text hel.className) ?_ fun _ => rfl
    refine Emit.bind (c := ()) (Emit.text hel.parent) ?_ fun _ => rfl
    refine Emit.bind (c := ()) (Emit.text hel.clones) ?_ fun _ => rfl
    refine Emit.bind (c := ()) (Emit.i32 hel.chksum) ?_ fun _ => rfl
    refine RootElement.emitVersion (h.elem e he) ?_
    refine Emit.bind (c := ()) (Emit.i32 hel.id) ?_ fun _ => rfl
    refine Emit.bind (c := ()) (Emit.i32 hel.btype) ?_ fun _ => rfl
    refine Emit.bind (c := ()) (Emit.i32 hel.stype) ?_ fun _ => rfl
    refine Emit.bind (c := ()) (Emit.i32 hel.max) ?_ fun _ => rfl
    refine Emit.bind (c := ()) (Emit.pointer (h.elem e he).counter _) ?_ fun _ => rfl
    rw [if_neg (by simp)]
    refine Emit.thenPure (Emit.pointer (h.elem e he).counter2 _) ?_
    rw [if_neg (by simp)]
    rfl

theorem RootBranch.seenAll_length : ∀ bs : List RootBranch, (RootBranch.seenAll bs).length = bs.length
  | [] => by rw [RootBranch.seenAll]; rfl
  | b :: bs => by rw [RootBranch.seenAll, List.length_cons, List.length_cons, RootBranch.seenAll_length bs]

mutual
theorem RootBranch.emit : ∀ (b : RootBranch) (fuel : Nat), b.Ok → b.addrs.Nodup → b.depth ≤ fuel →
    EmitS true b.addrs (Wr.objectAny { cls := b.shape.cls, addr := b.shape.addr, marshal := b.marshal }) id
      (readAny (fuel + 2)) (some (.branch b.seen))
  | .mk s sub, fuel, hok, hnd, hf => by
    rw [RootBranch.Ok] at hok
    rw [RootBranch.depth] at hf
    rw [RootBranch.addrs] at hnd ⊢
    obtain ⟨fuel, rfl⟩ : ∃ f, fuel = f + 1 := ⟨fuel - 1, by omega⟩
    have hd := List.nodup_append.1 hnd
    have hall := RootBranch.emitAll sub fuel hok.2.2 hd.2.1 (by omega)
    have hs := List.nodup_cons.1 hd.1
    have hm := BranchShape.emitMarshal hok.1 hok.2.1 (RootBranch.seenAll_length sub) hall (by
      refine List.nodup_append.2 ⟨hd.2.1, hs.2, fun a ha b hb e => ?_⟩
      exact hd.2.2 b (List.mem_cons_of_mem _ hb) a ha e.symm)
    rw [RootBranch.marshal, RootBranch.seen]
    refine EmitS.congrS (EmitS.objectAny (ret := id)
      (S := RootBranch.addrsAll sub ++ (s.leaves.map RootLeaf.addr ++ s.kept.filterMap (Option.map Prod.fst)))
      (o := { cls := s.cls, addr := s.addr, marshal := s.marshal sub.length (RootBranch.writeAll sub) })
      (build := unmarshalOf (readAny (fuel + 2)))
      (rd := do let x ← s.rd (readAny (fuel + 2)); Pure.pure (Obj.branch x)) (hm.thenPure rfl) ?_ ?_ ?_) ?_
    · intro h
      rcases List.mem_append.1 h with h | h
      · exact hd.2.2 _ (List.mem_cons_self ..) _ h rfl
      · exact hs.1 h
    · exact s.unmarshalOf_cls _
    · exact s.cls_ok
    · intro a
      unfold BranchShape.addrs
      simp only [List.mem_cons, List.mem_append]
      constructor
      · rintro (h | h | h)
        · exact .inl (.inl h)
        · exact .inr h
        · exact .inl (.inr h)
      · rintro ((h | h) | h)
        · exact .inl h
        · exact .inr (.inr h)
        · exact .inr (.inl h)
theorem RootBranch.emitAll : ∀ (bs : List RootBranch) (fuel : Nat), RootBranch.OkAll bs → (RootBranch.addrsAll bs).Nodup →
    RootBranch.depthAll bs ≤ fuel →
    EmitS true (RootBranch.addrsAll bs) (RootBranch.writeAll bs) (fun _ => ()) (Rd.times bs.length (readAny (fuel + 2)))
      ((RootBranch.seenAll bs).map fun b => some (.branch b))
  | [], _, _, _, _ => by
    rw [RootBranch.addrsAll, RootBranch.writeAll, RootBranch.seenAll]
    exact EmitS.pure rfl
  | b :: bs, fuel, hok, hnd, hf => by
    rw [RootBranch.OkAll] at hok
    rw [RootBranch.addrsAll] at hnd ⊢
    rw [RootBranch.depthAll] at hf
    rw [RootBranch.writeAll, RootBranch.seenAll]
    have hd := List.nodup_append.1 hnd
    simp only [List.length_cons, Rd.times, List.map_cons]
    exact EmitS.bind (c := ()) (RootBranch.emit b fuel hok.1 hd.1 (by omega)).drop
      (EmitS.thenPure (RootBranch.emitAll bs fuel hok.2 hd.2.1 (by omega)) rfl)
      (fun a ha hb => hd.2.2 a ha a hb rfl) fun _ => rfl
end

/-! ### Trees -/

theorem Emit.pointerNil {ne K} {fuel : Nat} :
    Emit ne K K (rootPointer none) (fun _ => ()) (Rd.mustBeNil (readAny (fuel + 1))) () := by
  refine Emit.thenPure (Emit.pointer (p := none) (fun _ h => by cases h) _) ?_
  rw [if_neg (by simp)]

theorem RootTree.emitWith {t : RootTree} (h : t.Ok) {fuel : Nat} (hf : RootBranch.depthAll t.branches ≤ fuel)
    {tail : Wr Unit} {S : List Nat} {info : Option (TObject × Str × List Obj)}
    (ht : EmitS true S tail (fun _ => ()) (readTreeTail (readAny (fuel + 2))) info)
    (hdis : ∀ a ∈ RootBranch.addrsAll t.branches, a ∉ S) :
    EmitS false (RootBranch.addrsAll t.branches ++ S) (t.writeWith tail) id (TreeData.unmarshal (readAny (fuel + 2)))
      (t.seen, RootBranch.seenAll t.branches, info) := by
  intro K hK
  have hK1 : ∀ a ∈ RootBranch.addrsAll t.branches, ¬ K a := fun a ha => hK a (List.mem_append_left _ ha)
  have hv := h.vers
  have hs := h.data
  unfold RootTree.writeWith TreeData.unmarshal
  refine Emit.framed (by unfold InI; omega) fun hd hvers => ?_
  have h5 : 5 < t.vers := by omega
  rw [Rd.ensureMax_eq (by rw [hvers]; exact hv.2), Rd.pure_bind, hvers,
    Rd.ensureMin_eq (show (4 : Int) < t.vers by omega)]
  simp only [Rd.pure_bind, h5, if_true]
  refine Emit.bind (c := ()) (Emit.namedFits hs.named) ?_ fun _ => rfl
  refine Emit.bind (c := ()) (Emit.attLine hs.attline) ?_ fun _ => rfl
  refine Emit.bind (c := ()) (Emit.attFill hs.attfill) ?_ fun _ => rfl
  refine Emit.bind (c := ()) (Emit.attMarker hs.attmarker) ?_ fun _ => rfl
  refine Emit.bind (c := ()) (Emit.i64 hs.entries) ?_ fun _ => rfl
  refine Emit.bind (c := ()) (Emit.i64 hs.totBytes) ?_ fun _ => rfl
  refine Emit.bind (c := ()) (Emit.i64 hs.zipBytes) ?_ fun _ => rfl
  refine Emit.bind (c := ()) (Emit.i64 hs.savedBytes) ?_ fun _ => rfl
  refine Emit.whenBind (r := ()) (Emit.i64 hs.flushedBytes) ?_ fun _ => rfl
  refine Emit.whenBind (r := ()) (Emit.f64 hs.weight) ?_ fun _ => rfl
  refine Emit.bind (c := ()) (Emit.i32 hs.timerInterval) ?_ fun _ => rfl
  refine Emit.bind (c := ()) (Emit.i32 hs.scanField) ?_ fun _ => rfl
  refine Emit.bind (c := ()) (Emit.i32 hs.update) ?_ fun _ => rfl
  refine Emit.whenBind (r := ()) (Emit.i32 hs.defaultEntryOffsetLen) ?_ fun _ => rfl
  refine Emit.whenBind (r := ()) (Emit.i32 (InI4_nat hs.fewClusters)) ?_ fun _ => rfl
  refine Emit.bind (c := ()) (Emit.i64 hs.maxEntries) ?_ fun _ => rfl
  refine Emit.bind (c := ()) (Emit.i64 hs.maxEntryLoop) ?_ fun _ => rfl
  refine Emit.bind (c := ()) (Emit.i64 hs.maxVirtualSize) ?_ fun _ => rfl
  refine Emit.bind (c := ()) (Emit.i64 hs.autoSave) ?_ fun _ => rfl
  refine Emit.whenBind (r := ()) (Emit.i64 hs.autoFlush) ?_ fun _ => rfl
  refine Emit.bind (c := ()) (Emit.i64 hs.estimate) ?_ fun _ => rfl
  refine Emit.whenBind' (r := ()) (v := t.data.clusterRanges) (fun h19 => ?_) ?_ fun _ => rfl
  · rw [if_pos h19]
    have := Emit.rootTable (ne := true) (K := K) (m := t.data.clusterRanges.length) (keep := t.data.clusterRanges.length)
      (fun i hi => Emit.i64 (hs.clusterRanges i hi)) rfl (by omega) (by omega)
    rwa [Int.toNat_natCast, List.take_length] at this
  refine Emit.whenBind' (r := ()) (v := t.data.clusterSizes) (fun h19 => ?_) ?_ fun _ => rfl
  · rw [if_pos h19, ← hs.clusterLen]
    have := Emit.rootTable (ne := true) (K := K) (m := t.data.clusterSizes.length) (keep := t.data.clusterSizes.length)
      (fun i hi => Emit.i64 (hs.clusterSizes i hi)) rfl (by omega) (by omega)
    rwa [Int.toNat_natCast, List.take_length] at this
  refine Emit.whenBind (r := ()) (Emit.io hs.iobits) ?_ fun _ => rfl
  -- the branches
  refine Emit.bind (c := ()) (Emit.rootArrayOf (conv := Obj.toBranch) (l := RootBranch.seenAll t.branches)
    (RootBranch.emitAll t.branches fuel h.branches h.distinct hf K hK1) h.few ?_) ?_ fun _ => rfl
  · have e : ((RootBranch.seenAll t.branches).map fun b => some (Obj.branch b)).filterMap id =
        (RootBranch.seenAll t.branches).map Obj.branch := by
      simp [List.filterMap_map, Function.comp_def]
    rw [e]
    exact mapM_some (f := Obj.toBranch) (g := Obj.branch) (fun _ => rfl) _
  -- the leaves
  refine Emit.bind (c := ()) (Emit.rootArray (Emit.each (v := fun _ => none) fun pos hp => Emit.pointer (h.leaves pos hp) _)
    h.fewLeaves) ?_ fun _ => rfl
  have htail := ht (fun a => K a ∨ a ∈ RootBranch.addrsAll t.branches) (by
    rintro a ha (h | h)
    · exact hK a (List.mem_append_right _ ha) h
    · exact hdis a h ha)
  refine Emit.congrK (K' := fun a => (K a ∨ a ∈ RootBranch.addrsAll t.branches) ∨ a ∈ S) ?_ (fun _ => Iff.rfl) fun a => by
    simp [or_assoc]
  have := Emit.thenPure (g := fun u => (Pure.pure (t.seen, RootBranch.seenAll t.branches, u) : Rd _)) htail rfl
  unfold readTreeTail at this
  simp only [Rd.bind_assoc, Rd.pure_bind] at this ⊢
  exact this

theorem RootTree.emit {t : RootTree} (h : t.Ok) {fuel : Nat} (hf : RootBranch.depthAll t.branches ≤ fuel) :
    EmitS false (RootBranch.addrsAll t.branches) t.write id (TreeData.unmarshal (readAny (fuel + 2)))
      (t.seen, RootBranch.seenAll t.branches, none) := by
  refine EmitS.congrS (RootTree.emitWith (S := []) h hf ?_ (by simp)) (by simp)
  intro K hK
  refine Emit.congrK (K' := K) ?_ (fun _ => Iff.rfl) (by simp)
  unfold readTreeTail
  show Emit _ _ _ (Wr.each _ [(), (), (), (), (), (), ()]) _ _ _
  simp only [Wr.each]
  refine Emit.bind (c := ()) Emit.pointerNil ?_ fun _ => rfl
  refine Emit.bind (c := ()) Emit.pointerNil ?_ fun _ => rfl
  refine Emit.bind (c := ()) Emit.pointerNil ?_ fun _ => rfl
  refine Emit.bind (c := ()) Emit.pointerNil ?_ fun _ => rfl
  refine Emit.bind (c := ()) Emit.pointerNil ?_ fun _ => rfl
  refine Emit.bind (c := ()) (Emit.pointer (p := none) (fun _ h => by cases h) _) ?_ fun _ => rfl
  simp only [Rd.pure_bind]
  refine Emit.bind (c := ()) Emit.pointerNil ?_ fun _ => rfl
  exact Emit.pure rfl

/-! ### Listing -/

mutual
theorem RootBranch.branchesR_seen : ∀ b : RootBranch, b.seen :: b.seen.branchesR = b.listing.map RootBranch.seen
  | .mk s sub => by
    rw [RootBranch.listing, List.map_cons, RootBranch.seen, ← RootBranch.branchesR_seenAll sub]
    rfl
theorem RootBranch.branchesR_seenAll : ∀ bs : List RootBranch,
    branchesR (RootBranch.seenAll bs) = (RootBranch.listAll bs).map RootBranch.seen
  | [] => by rw [RootBranch.seenAll, RootBranch.listAll]; rfl
  | b :: bs => by
    rw [RootBranch.seenAll, RootBranch.listAll, List.map_append, ← RootBranch.branchesR_seen b,
      ← RootBranch.branchesR_seenAll bs]
    rfl
end

end Verif
