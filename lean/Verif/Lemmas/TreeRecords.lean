import Verif.Spec.TreeRecords
import Verif.Lemmas.Streamers
namespace Verif

/-! ### Attributes -/

theorem Emit.attFill {ne K} {a : AttFill} (h : a.Storable) :
    Emit ne K K (Wr.drop a.marshal) (fun _ => ()) AttFill.unmarshal a.expected :=
  (Emit.lift' (AttFill.writes a) (AttFill.reads h) (ret := id) rfl).drop

theorem Emit.attLine {ne K} {a : AttLine} (h : a.Storable) :
    Emit ne K K (Wr.drop a.marshal) (fun _ => ()) AttLine.unmarshal a.expected :=
  (Emit.lift' (AttLine.writes a) (AttLine.reads h) (ret := id) rfl).drop

theorem Emit.attMarker {ne K} {a : AttMarker} (h : a.Storable) :
    Emit ne K K (Wr.drop a.marshal) (fun _ => ()) AttMarker.unmarshal a.expected :=
  (Emit.lift' (AttMarker.writes a) (AttMarker.reads h) (ret := id) rfl).drop

theorem Emit.io {ne K} {v : Nat} (h : InU 1 v) :
    Emit ne K K (Wr.drop (TioFeatures.marshal v)) (fun _ => ()) TioFeatures.unmarshal v :=
  (Emit.lift' (Writes.io v) (Reads.io h) (ret := id) rfl).drop

/-! ### Leaves -/

theorem TLeaf.emit {t : TLeaf} (h : t.Storable) {K} {fuel : Nat} :
    Emit true K K t.marshal id (TLeaf.unmarshal (readAny (fuel + 1)) Obj.isLeafElement) t := by
  unfold TLeaf.marshal TLeaf.unmarshal
  refine Emit.lenMinusOne (Emit.framed (by decide) fun hd hv => ?_)
  rw [Rd.ensureMax_eq (by rw [hv]; decide), Rd.pure_bind, h.count]
  refine Emit.bind (c := ()) (Emit.namedFits h.named) ?_ fun _ => rfl
  refine Emit.bind (c := ()) (Emit.i32 h.len) ?_ fun _ => rfl
  refine Emit.bind (c := ()) (Emit.i32 h.etype) ?_ fun _ => rfl
  refine Emit.bind (c := ()) (Emit.i32 h.offset) ?_ fun _ => rfl
  refine Emit.bind (c := ()) (Emit.bool _) ?_ fun _ => rfl
  refine Emit.bind (c := ()) (Emit.bool _) ?_ fun _ => rfl
  refine Emit.thenPure (Emit.nil _) ?_
  simp only [if_neg h.lenPos]
  obtain ⟨named, len, etype, offset, hasRange, unsigned, count⟩ := t
  obtain rfl : count = false := h.count
  rfl

theorem LeafKind.emit {k : LeafKind} {v : Int} (h : k.Fits v) {ne K} :
    Emit ne K K (k.put v) (fun _ => ()) k.get v := by
  cases k with
  | I => exact Emit.i32 h
  | C => exact Emit.i32 h
  | B => exact Emit.i8 h
  | S => exact Emit.i16 h
  | L => exact Emit.i64 h
  | F =>
    refine Emit.thenPure (Emit.f32 h.2) ?_
    rw [Int.toNat_of_nonneg h.1]
  | D =>
    refine Emit.thenPure (Emit.f64 h.2) ?_
    rw [Int.toNat_of_nonneg h.1]
  | O =>
    rcases h with rfl | rfl
    · exact Emit.thenPure (Emit.bool false) rfl
    · exact Emit.thenPure (Emit.bool true) rfl

/-- What the reader of the class of a leaf does. -/
def Leaf.rd (any : Rd (Option Obj)) : Leaf → Rd Leaf
  | .base _ => do let t ← TLeaf.unmarshal any Obj.isLeafElement; pure (.base t)
  | .element .. => Leaf.unmarshalElement any Obj.isLeafElement
  | .var k .. => Leaf.unmarshalVar k any Obj.isLeafElement

theorem Leaf.emit {l : Leaf} (h : l.Storable) {K} {fuel : Nat} :
    Emit true K K l.marshal id (l.rd (readAny (fuel + 1))) l := by
  cases l with
  | base t => exact absurd h id
  | element rvers t lid ltype =>
    obtain ⟨hr, ht, h1, h2⟩ := h
    unfold Leaf.marshal Leaf.rd Leaf.unmarshalElement
    refine Emit.lenMinusOne (Emit.framed (by decide) fun hd hv => ?_)
    rw [Rd.ensureMax_eq (by rw [hv]; decide), Rd.pure_bind]
    refine Emit.bind (c := ()) (TLeaf.emit ht).drop ?_ fun _ => rfl
    refine Emit.bind (c := ()) (Emit.i32 h1) ?_ fun _ => rfl
    refine Emit.thenPure (Emit.i32 h2) ?_
    rw [hv, hr]; rfl
  | var k rvers t min max =>
    obtain ⟨hr, ht, h1, h2⟩ := h
    unfold Leaf.marshal Leaf.rd Leaf.unmarshalVar
    refine Emit.lenMinusOne (Emit.framed (by decide) fun hd hv => ?_)
    rw [Rd.ensureMax_eq (by rw [hv]; decide), Rd.pure_bind]
    refine Emit.bind (c := ()) (TLeaf.emit ht).drop ?_ fun _ => rfl
    refine Emit.bind (c := ()) (LeafKind.emit h1) ?_ fun _ => rfl
    refine Emit.thenPure (LeafKind.emit h2) ?_
    rw [hv, hr]; rfl

theorem Leaf.cls_ok (l : Leaf) : ClassNameOk l.cls := by
  cases l with
  | var k => cases k <;> (simp only [Leaf.cls]; decide)
  | _ => simp only [Leaf.cls]; decide

theorem Leaf.unmarshalOf_cls (l : Leaf) (any : Rd (Option Obj)) :
    unmarshalOf any l.cls = some (do let x ← l.rd any; pure (.leaf x)) := by
  cases l with
  | base t =>
    show some _ = some _
    congr 1
    simp only [Leaf.rd, Rd.bind_assoc]
    rfl
  | element => rfl
  | var k => cases k <;> rfl

/-- A leaf at some address, as `write_object_any` gets it. -/
def leafObj (p : Leaf × Nat) : WObj := { cls := p.1.cls, addr := p.2, marshal := p.1.marshal }

theorem Leaf.emitAny {l : Leaf} (h : l.Storable) (addr fuel : Nat) :
    EmitS true [addr] (Wr.objectAny (leafObj (l, addr))) id (readAny (fuel + 2))
      (some (.leaf l)) := by
  refine EmitS.objectAny (S := []) (ret := id) (o := leafObj (l, addr))
    (rd := do let x ← l.rd (readAny (fuel + 1)); pure (Obj.leaf x)) ?_ (by simp) ?_ l.cls_ok
  · intro K _
    exact Emit.congrK (Emit.last (Leaf.emit h)) (fun _ => Iff.rfl) (by simp)
  · exact l.unmarshalOf_cls _

/-! ### Tables -/

theorem Wr.bind_assoc {α β γ} (m : Wr α) (f : α → Wr β) (g : β → Wr γ) :
    (m >>= f) >>= g = m >>= fun a => f a >>= g := by
  funext r
  show (match (match m r with | .ok (a, r') => f a r' | .error e => .error e) with
    | .ok (b, r') => g b r' | .error e => .error e) =
    (match m r with
      | .ok (a, r') => (match f a r' with | .ok (b, r'') => g b r'' | .error e => .error e)
      | .error e => .error e)
  cases m r with
  | ok p => rfl
  | error e => rfl

theorem Wr.each_append {ι} (f : ι → Wr Unit) (a b : List ι) :
    Wr.each f (a ++ b) = (do Wr.each f a; Wr.each f b) := by
  induction a with
  | nil => rfl
  | cons i l ih => simp only [List.cons_append, Wr.each, ih, Wr.bind_assoc]

theorem Wr.paddedTable_eq (put : Int → Wr Unit) (v : List Int) (n m : Nat) (h : n ≤ v.length)
    (hm : n ≤ m) : Wr.paddedTable put v n m =
      (do Wr.i8 1; Wr.each put (v.take n ++ List.replicate (m - n) 0)) := by
  unfold Wr.paddedTable
  rw [if_neg (by omega), if_neg (by omega), Wr.each_append]
  rw [show ((m : Int) - n).toNat = m - n by omega, Int.toNat_natCast]

theorem Emit.table {ne K} {put : Int → Wr Unit} {get : Rd Int} {v : List Int} {n m : Nat}
    (hget : ∀ i ∈ v, Emit ne K K (put i) (fun _ => ()) get i)
    (h0 : Emit ne K K (put 0) (fun _ => ()) get 0) (h : n ≤ v.length) (hm : n ≤ m) :
    Emit ne K K (Wr.paddedTable put v n m) (fun _ => ()) (Rd.table get m n) (v.take n) := by
  rw [Wr.paddedTable_eq put v n m h hm]
  unfold Rd.table
  refine Emit.bind (c := ()) (Emit.i8 (v := 1) (by decide)) ?_ fun _ => rfl
  rw [if_neg (by omega)]
  refine Emit.thenPure (v := v.take n ++ List.replicate (m - n) 0) (Emit.nums ?_ ?_) ?_
  · simp; omega
  · intro i hi
    rcases List.mem_append.1 hi with hi | hi
    · exact hget i (List.mem_of_mem_take hi)
    · rw [(List.mem_replicate.1 hi).2]; exact h0
  · rw [if_neg (by omega)]
    congr 1
    rw [Int.toNat_natCast, List.take_append_of_le_length (by simp; omega), List.take_take,
      Nat.min_self]

theorem Emit.thenStep {α β γ} {ne K K' K''} {m : Wr Unit} {f : Unit → Wr α} {ret : Nat → α}
    {rd : Rd β} {g : β → Rd γ} {v u} {c : α} (h1 : Emit ne K K' m (fun _ => ()) rd v)
    (h2 : Emit ne K' K'' (f ()) ret (g v) u) (hret : ∀ n, ret n = c) :
    Emit ne K K'' (m >>= f) ret (rd >>= g) u := Emit.bind h1 h2 hret

theorem mapM_some {α β} {f : β → Option α} {g : α → β} (h : ∀ a, f (g a) = some a) (l : List α) :
    (l.map g).mapM f = some l := by
  induction l with
  | nil => rfl
  | cons a l ih => simp [List.mapM_cons, h, ih]

/-- An array of converted objects. -/
theorem Emit.arrayOf {α ne K K'} {any : Rd (Option Obj)} {conv : Obj → Option α} {objs : List WObj}
    {vals : List (Option Obj)} {l : List α}
    (h : Emit true K K' (Wr.each (fun o => Wr.drop (Wr.objectAny o)) objs) (fun _ => ())
      (Rd.times objs.length any) vals) (hlen : objs.length < 2 ^ 31)
    (hv : (vals.filterMap id).mapM conv = some l) :
    Emit ne K K' (Wr.drop (TObjArray.marshal TObject.default none 0 objs)) (fun _ => ())
      (Rd.arrayOf any conv) l := by
  refine Emit.thenPure (Emit.plainArray h hlen).drop ?_
  simp only [hv]
  rfl

theorem Emit.emptyArrayOf {α ne K} {any : Rd (Option Obj)} {conv : Obj → Option α} :
    Emit ne K K (Wr.drop (TObjArray.marshal TObject.default none 0 [])) (fun _ => ())
      (Rd.arrayOf any conv) [] :=
  Emit.arrayOf (vals := []) (Emit.pure rfl) (by decide) rfl

theorem flatMap_singleton_zip {α} (l : List α) (a : List Nat) (h : a.length = l.length) :
    (l.zip a).flatMap (fun p => [p.2]) = a := by
  induction l generalizing a with
  | nil => cases a with
    | nil => rfl
    | cons => simp at h
  | cons x l ih =>
    cases a with
    | nil => simp at h
    | cons y a => simp only [List.zip_cons_cons, List.flatMap_cons, ih a (by simpa using h)]; rfl

theorem map_fst_zip' {α} (l : List α) (a : List Nat) (h : a.length = l.length) :
    (l.zip a).map Prod.fst = l := List.map_fst_zip (by omega)

theorem bMaxBaskets_nat (nb : Nat) :
    bMaxBaskets nb = ((if nb + 1 < 10 then 10 else nb + 1 : Nat) : Int) := by
  unfold bMaxBaskets
  split <;> split <;> omega

theorem BranchData.emitLeaves {d : BranchData} {nb : Nat} (h : d.Storable nb) {addrs : List Nat}
    (ha : addrs.length = d.leaves.length) (hnd : addrs.Nodup) (fuel : Nat) :
    EmitS true addrs
      (Wr.drop (TObjArray.marshal TObject.default none 0 ((d.leaves.zip addrs).map leafObj)))
      (fun _ => ()) (Rd.arrayOf (readAny (fuel + 2)) Obj.toLeaf) d.leaves := by
  intro K hK
  have hobj := EmitS.objects (any := readAny (fuel + 2)) (l := d.leaves.zip addrs)
    (f := leafObj) (S := fun p => [p.2]) (val := fun p => some (.leaf p.1))
    (fun p hp => Leaf.emitAny (h.leaves p.1 (List.of_mem_zip (a := p.1) (b := p.2) hp).1) p.2 fuel) (by
      have hm : (d.leaves.zip addrs).map Prod.snd = addrs := List.map_snd_zip (by omega)
      rw [← hm, List.nodup_iff_pairwise_ne, List.pairwise_map] at hnd
      exact hnd.imp fun h a ha hb => h (by simp at ha hb; rw [← ha, hb]))
  rw [flatMap_singleton_zip _ _ ha] at hobj
  refine Emit.arrayOf (hobj K hK) ?_ ?_
  · have := h.fewLeaves
    simp; omega
  · have e : ((d.leaves.zip addrs).map fun p => some (Obj.leaf p.1)).filterMap id =
        d.leaves.map Obj.leaf := by
      rw [List.filterMap_map]
      conv => rhs; rw [← map_fst_zip' d.leaves addrs ha, List.map_map]
      simp [Function.comp_def]
    rw [e]
    exact mapM_some (f := Obj.toLeaf) (g := Obj.leaf) (fun _ => rfl) _

theorem BranchData.emit {d : BranchData} {nb : Nat} (h : d.Storable nb) {addrs : List Nat}
    (ha : addrs.length = d.leaves.length) (hnd : addrs.Nodup) (fuel : Nat) :
    EmitS true addrs (d.marshal [] addrs) id (BranchData.unmarshal (readAny (fuel + 2)))
      (d.expected nb, []) := by
  intro K hK
  unfold BranchData.marshal BranchData.unmarshal
  refine Emit.lenMinusOne (Emit.counted (Emit.drop (ret := id) (Emit.framed (by decide) fun hd hv => ?_)))
  have hv13 : hd.vers = 13 := hv
  rw [Rd.ensureMax_eq (by rw [hv]; decide), Rd.pure_bind, if_pos (show 10 ≤ hd.vers by rw [hv13]; decide), hv13]
  unfold BranchData.unmarshalNew
  refine Emit.bind (c := ()) (Emit.namedFits h.named) ?_ fun _ => rfl
  refine Emit.bind (c := ()) (Emit.attFill h.attfill) ?_ fun _ => rfl
  refine Emit.bind (c := ()) (Emit.i32 h.compress) ?_ fun _ => rfl
  refine Emit.bind (c := ()) (Emit.i32 h.basketSize) ?_ fun _ => rfl
  refine Emit.bind (c := ()) (Emit.i32 h.entryOffsetLen) ?_ fun _ => rfl
  obtain ⟨m, hm⟩ : ∃ m : Nat, m = if nb + 1 < 10 then 10 else nb + 1 := ⟨_, rfl⟩
  have hm1 : nb + 1 ≤ m := by rw [hm]; split <;> omega
  have hm2 : m < 2 ^ 31 := by have := h.fewBaskets; rw [hm]; split <;> omega
  rw [h.writeBasket, bMaxBaskets_nat, ← hm]
  refine Emit.bind (c := ()) (Emit.i32 (InI4_nat (by have := h.fewBaskets; omega))) ?_ fun _ => rfl
  refine Emit.bind (c := ()) (Emit.i64 h.entryNumber) ?_ fun _ => rfl
  simp only [show (13 : Int) ≤ 13 from by decide, show (11 : Int) ≤ 13 from by decide, if_true]
  refine Emit.bind (c := ()) (Emit.io h.iobits) ?_ fun _ => rfl
  refine Emit.bind (c := ()) (Emit.i32 h.offset) ?_ fun _ => rfl
  refine Emit.bind (c := ()) (Emit.i32 (InI4_nat hm2)) ?_ fun _ => rfl
  refine Emit.bind (c := ()) (Emit.i32 h.splitLevel) ?_ fun _ => rfl
  refine Emit.bind (c := ()) (Emit.i64 h.entries) ?_ fun _ => rfl
  refine Emit.bind (c := ()) (Emit.i64 h.firstEntry) ?_ fun _ => rfl
  refine Emit.bind (c := ()) (Emit.i64 h.totBytes) ?_ fun _ => rfl
  refine Emit.bind (c := ()) (Emit.i64 h.zipBytes) ?_ fun _ => rfl
  rw [if_neg (show ¬ (([] : List Branch) ≠ []) by simp)]
  refine Emit.bind (c := ()) Emit.emptyArrayOf ?_ fun _ => rfl
  refine Emit.bind (c := ()) (BranchData.emitLeaves h ha hnd fuel K hK) ?_ fun _ => rfl
  rw [if_neg (show ¬ (d.baskets ≠ []) by simp [h.noBaskets])]
  refine Emit.bind (c := ()) Emit.emptyArrayOf ?_ fun _ => rfl
  refine Emit.bind (c := ()) (Emit.table (fun i hi => Emit.i32 (h.bytes i hi))
    (Emit.i32 (by decide)) h.bytesLen (by omega)) ?_ fun _ => rfl
  refine Emit.bind (c := ()) (Emit.table (n := nb + 1) (fun i hi => Emit.i64 (h.entry i hi))
    (Emit.i64 (by decide)) h.entryLen (by omega)) ?_ fun _ => rfl
  refine Emit.bind (c := ()) (Emit.table (fun i hi => Emit.i64 (h.seek i hi))
    (Emit.i64 (by decide)) h.seekLen (by omega)) ?_ fun _ => rfl
  refine Emit.thenPure (Emit.text h.fname) ?_
  have hnb := h.noBaskets
  have hwb := h.writeBasket
  have hfix : ∀ x : BranchData, x.fixSplit [] = x := fun x => by simp [BranchData.fixSplit]
  rw [hfix]
  unfold BranchData.expected
  have hmi : (if nb + 1 < 10 then (10 : Int) else nb + 1) = m := by rw [hm]; split <;> simp
  rw [hmi, hnb, hwb]

/-! ### Branches -/

/-- What the reader of the class of a branch does. -/
def Branch.rd (any : Rd (Option Obj)) (b : Branch) : Rd Branch :=
  match b.elem with
  | none => Branch.unmarshalBase any
  | some _ => Branch.unmarshalElement any

theorem Branch.emit {b : Branch} {nb : Nat} (h : b.Storable nb) {addrs : List Nat}
    (ha : addrs.length = b.data.leaves.length) (hnd : addrs.Nodup) (fuel : Nat) :
    EmitS true addrs (b.marshal addrs) id (b.rd (readAny (fuel + 2))) (b.expected nb) := by
  obtain ⟨d, e, bs⟩ := b
  obtain ⟨h1, h2, h3⟩ := h
  obtain rfl : bs = [] := h1
  have h2 : d.Storable nb := h2
  intro K hK
  unfold Branch.marshal
  refine Emit.lenMinusOne ?_
  cases e with
  | none =>
    exact Emit.thenPure (BranchData.emit h2 ha hnd fuel K hK) rfl
  | some e =>
    have h3 : e.Storable := h3 e rfl
    show Emit true K _ (Wr.counted _) id (Branch.unmarshalElement _) _
    unfold Branch.unmarshalElement
    refine Emit.counted (Emit.drop (ret := id) (Emit.framed (by decide) fun hd hv => ?_))
    have hv10 : hd.vers = 10 := hv
    rw [Rd.ensureMax_eq (by rw [hv]; decide), Rd.pure_bind, hv10]
    simp only [show (1 : Int) < 10 from by decide, show (10 : Int) ≤ 10 from by decide, if_true]
    refine Emit.bind (c := ()) (BranchData.emit h2 ha hnd fuel K hK).drop ?_ fun _ => rfl
    refine Emit.bind (c := ()) (Emit.text h3.className) ?_ fun _ => rfl
    refine Emit.bind (c := ()) (Emit.text h3.parent) ?_ fun _ => rfl
    refine Emit.bind (c := ()) (Emit.text h3.clones) ?_ fun _ => rfl
    refine Emit.bind (c := ()) (Emit.i32 h3.chksum) ?_ fun _ => rfl
    refine Emit.bind (c := ()) (Emit.i16 h3.clsver) ?_ fun _ => rfl
    refine Emit.bind (c := ()) (Emit.i32 h3.id) ?_ fun _ => rfl
    refine Emit.bind (c := ()) (Emit.i32 h3.btype) ?_ fun _ => rfl
    refine Emit.bind (c := ()) (Emit.i32 h3.stype) ?_ fun _ => rfl
    refine Emit.bind (c := ()) (Emit.i32 h3.max) ?_ fun _ => rfl
    refine Emit.bind (c := ()) (Emit.nil _) ?_ fun _ => rfl
    rw [if_neg (by simp)]
    refine Emit.thenPure (Emit.nil _) ?_
    rw [if_neg (by simp)]
    rfl

theorem Branch.cls_ok (b : Branch) : ClassNameOk b.cls := by
  unfold Branch.cls
  cases b.elem <;> (simp only []; decide)

theorem Branch.unmarshalOf_cls (b : Branch) (any : Rd (Option Obj)) :
    unmarshalOf any b.cls = some (do let x ← b.rd any; pure (.branch x)) := by
  unfold Branch.cls Branch.rd
  cases b.elem <;> rfl

theorem PlacedBranch.emitAny {b : PlacedBranch} {nb : Nat} (h : b.branch.Storable nb)
    (ha : b.leafAddrs.length = b.branch.data.leaves.length) (hnd : b.addrs.Nodup) (fuel : Nat) :
    EmitS true b.addrs (Wr.objectAny b.obj) id (readAny (fuel + 3))
      (some (.branch (b.branch.expected nb))) := by
  have hn := List.nodup_cons.1 hnd
  refine EmitS.objectAny (S := b.leafAddrs) (ret := id) (o := b.obj)
    (rd := do let x ← b.branch.rd (readAny (fuel + 2)); pure (Obj.branch x)) ?_ hn.1 ?_
    b.branch.cls_ok
  · exact (Branch.emit h ha hn.2 fuel).thenPure rfl
  · exact b.branch.unmarshalOf_cls _

/-! ### Trees -/

theorem Emit.mustBeNil {ne K} {fuel : Nat} :
    Emit ne K K (Wr.drop Wr.objectNil) (fun _ => ()) (Rd.mustBeNil (readAny (fuel + 1))) () := by
  refine Emit.thenPure (Emit.nil _) ?_
  rw [if_neg (by simp)]

theorem Emit.knownArray {ο ne} {K : Nat → Prop} {build : Str → Option (Rd ο)} {objs : List WObj}
    (h : ∀ o ∈ objs, K o.addr) (hlen : objs.length < 2 ^ 31) :
    Emit ne K K (Wr.drop (TObjArray.marshal TObject.default none 0 objs)) (fun _ => ())
      (TObjArray.unmarshal (Rd.objectAny build)) (TObject.default, some [], 0, []) := by
  have h1 := Emit.each (ne := true) (K := K) (f := fun o => Wr.drop (Wr.objectAny o))
    (rd := Rd.objectAny build) (v := fun _ => none) (l := objs)
    (fun o ho => (Emit.objectAny_known (h o ho) build).drop)
  have h2 := (Emit.plainArray (ne := ne) h1 hlen).drop
  have e : (objs.map fun _ => (none : Option ο)).filterMap id = [] := by
    simp [List.filterMap_map, Function.comp_def]
  rw [e, TObject.default_afterRead] at h2
  exact h2

theorem pairwise_of_nodup_flatMap {ι α} {S : ι → List α} {l : List ι} (h : (l.flatMap S).Nodup) :
    l.Pairwise fun i j => ∀ a ∈ S i, a ∉ S j := by
  induction l with
  | nil => exact List.Pairwise.nil
  | cons i l ih =>
    rw [List.flatMap_cons, List.nodup_append] at h
    refine List.Pairwise.cons (fun j hj a ha hb => ?_) (ih h.2.1)
    exact h.2.2 a ha a (List.mem_flatMap.2 ⟨j, hj, hb⟩) rfl

theorem nodup_of_nodup_flatMap {ι α} {S : ι → List α} {l : List ι} (h : (l.flatMap S).Nodup)
    {i : ι} (hi : i ∈ l) : (S i).Nodup := by
  induction l with
  | nil => cases hi
  | cons j l ih =>
    rw [List.flatMap_cons, List.nodup_append] at h
    rcases List.mem_cons.1 hi with rfl | hi
    · exact h.1
    · exact ih h.2.1 hi

/-- An unpadded table, followed by something else. -/
theorem Emit.clusters {γ ne} {K K' : Nat → Prop} {l : List Int} {n : Nat} (hn : l.length = n)
    (hl : ∀ i ∈ l, InI 8 i) {f : Unit → Wr Unit} {g : List Int → Rd γ} {u : γ}
    (h : Emit ne K K' (f ()) (fun _ => ()) (g l) u) :
    Emit ne K K' (Wr.i8 0 >>= fun _ => Wr.each Wr.i64 l >>= f) (fun _ => ())
      (Rd.table Rd.i64 n n >>= g) u := by
  subst hn
  unfold Rd.table
  rw [Rd.bind_assoc]
  refine Emit.bind (c := ()) (Emit.i8 (v := 0) (by decide)) ?_ fun _ => rfl
  rw [if_neg (by omega), Rd.bind_assoc]
  refine Emit.bind (c := ()) (v := l) (Emit.nums (by simp) fun i hi => Emit.i64 (hl i hi)) ?_
    fun _ => rfl
  rw [if_neg (by omega), Rd.pure_bind, Int.toNat_natCast, List.take_length]
  exact h

/-- The last part of the record of a tree, as it is read. -/
def readTreeTail (any : Rd (Option Obj)) : Rd (Option (TObject × Str × List Obj)) := do
  Rd.mustBeNil any
  Rd.mustBeNil any
  Rd.mustBeNil any
  Rd.mustBeNil any
  Rd.mustBeNil any
  let u ← any
  let u ← match u with
    | none => pure none
    | some (.list o n l) => pure (some (o, n, l))
    | some _ => Rd.panic
  Rd.mustBeNil any
  pure u

theorem TreeData.emitWith {ne : Bool} {t : TreeData} (h : t.Storable) {bs : List PlacedBranch}
    {nb : PlacedBranch → Nat} (hb : PlacedOk bs nb) {fuel : Nat} {tail : Wr Unit} {S : List Nat}
    {info : Option (TObject × Str × List Obj)}
    (ht : EmitS true S tail (fun _ => ()) (readTreeTail (readAny (fuel + 3))) info)
    (hdis : ∀ a ∈ bs.flatMap PlacedBranch.addrs, a ∉ S) :
    EmitS ne (bs.flatMap PlacedBranch.addrs ++ S) (t.marshalWith bs tail) id
      (TreeData.unmarshal (readAny (fuel + 3)))
      (t.expected, bs.map (fun b => b.branch.expected (nb b)), info) := by
  intro K hK
  have hK1 : ∀ a ∈ bs.flatMap PlacedBranch.addrs, ¬ K a := fun a ha => hK a (List.mem_append_left _ ha)
  unfold TreeData.marshalWith TreeData.unmarshal
  refine Emit.framed (by decide) fun hd hv => ?_
  have hv20 : hd.vers = 20 := hv
  rw [Rd.ensureMax_eq (by rw [hv]; decide), Rd.pure_bind, hv20,
    Rd.ensureMin_eq (show (4 : Int) < 20 by decide)]
  simp only [Rd.pure_bind, show (5 : Int) < 20 from by decide, show (18 : Int) ≤ 20 from by decide,
    show (16 : Int) ≤ 20 from by decide, show (17 : Int) ≤ 20 from by decide,
    show (19 : Int) ≤ 20 from by decide, show (20 : Int) ≤ 20 from by decide, if_true,
    if_neg (show ¬ 2 ^ 31 ≤ t.clusterRanges.length by have := h.fewClusters; omega)]
  refine Emit.bind (c := ()) (Emit.namedFits h.named) ?_ fun _ => rfl
  refine Emit.bind (c := ()) (Emit.attLine h.attline) ?_ fun _ => rfl
  refine Emit.bind (c := ()) (Emit.attFill h.attfill) ?_ fun _ => rfl
  refine Emit.bind (c := ()) (Emit.attMarker h.attmarker) ?_ fun _ => rfl
  refine Emit.bind (c := ()) (Emit.i64 h.entries) ?_ fun _ => rfl
  refine Emit.bind (c := ()) (Emit.i64 h.totBytes) ?_ fun _ => rfl
  refine Emit.bind (c := ()) (Emit.i64 h.zipBytes) ?_ fun _ => rfl
  refine Emit.bind (c := ()) (Emit.i64 h.savedBytes) ?_ fun _ => rfl
  refine Emit.bind (c := ()) (Emit.i64 h.flushedBytes) ?_ fun _ => rfl
  refine Emit.bind (c := ()) (Emit.f64 h.weight) ?_ fun _ => rfl
  refine Emit.bind (c := ()) (Emit.i32 h.timerInterval) ?_ fun _ => rfl
  refine Emit.bind (c := ()) (Emit.i32 h.scanField) ?_ fun _ => rfl
  refine Emit.bind (c := ()) (Emit.i32 h.update) ?_ fun _ => rfl
  refine Emit.bind (c := ()) (Emit.i32 h.defaultEntryOffsetLen) ?_ fun _ => rfl
  refine Emit.bind (c := ()) (Emit.i32 (InI4_nat h.fewClusters)) ?_ fun _ => rfl
  refine Emit.bind (c := ()) (Emit.i64 h.maxEntries) ?_ fun _ => rfl
  refine Emit.bind (c := ()) (Emit.i64 h.maxEntryLoop) ?_ fun _ => rfl
  refine Emit.bind (c := ()) (Emit.i64 h.maxVirtualSize) ?_ fun _ => rfl
  refine Emit.bind (c := ()) (Emit.i64 h.autoSave) ?_ fun _ => rfl
  refine Emit.bind (c := ()) (Emit.i64 h.autoFlush) ?_ fun _ => rfl
  refine Emit.bind (c := ()) (Emit.i64 h.estimate) ?_ fun _ => rfl
  refine Emit.clusters rfl h.clusterRanges ?_
  refine Emit.clusters h.clusterLen h.clusterSizes ?_
  refine Emit.bind (c := ()) (Emit.io h.iobits) ?_ fun _ => rfl
  -- the branches
  have hobj := EmitS.objects (any := readAny (fuel + 3)) (l := bs) (f := PlacedBranch.obj)
    (S := PlacedBranch.addrs) (val := fun b => some (.branch (b.branch.expected (nb b))))
    (fun b hm => PlacedBranch.emitAny (hb.storable b hm) (hb.addrPerLeaf b hm)
      (nodup_of_nodup_flatMap hb.distinct hm) fuel) (pairwise_of_nodup_flatMap hb.distinct)
  have harr := Emit.arrayOf (ne := true) (conv := Obj.toBranch)
    (l := bs.map fun b => b.branch.expected (nb b)) (hobj K hK1) (by simpa using hb.few) (by
      have e : (bs.map fun b => some (Obj.branch (b.branch.expected (nb b)))).filterMap id =
          (bs.map fun b => b.branch.expected (nb b)).map Obj.branch := by
        simp [List.filterMap_map, Function.comp_def]
      rw [e]
      exact mapM_some (f := Obj.toBranch) (g := Obj.branch) (fun _ => rfl) _)
  refine Emit.bind (c := ()) harr ?_ fun _ => rfl
  -- their leaves, already written
  have hleaf := Emit.knownArray (ne := true) (K := fun a => K a ∨ a ∈ bs.flatMap PlacedBranch.addrs)
    (build := unmarshalOf (readAny (fuel + 2))) (objs := bs.flatMap PlacedBranch.leafObjs) (by
      intro o ho
      obtain ⟨b, hbm, ho⟩ := List.mem_flatMap.1 ho
      obtain ⟨p, hp, rfl⟩ := List.mem_map.1 ho
      right
      exact List.mem_flatMap.2 ⟨b, hbm, by
        simp [PlacedBranch.addrs, (List.of_mem_zip (a := p.1) (b := p.2) hp).2]⟩) (by
      refine Nat.lt_of_le_of_lt ?_ hb.fewLeaves
      simp only [List.length_flatMap]
      have : ∀ b ∈ bs, b.leafObjs.length = b.leafAddrs.length := by
        intro b hm
        have := hb.addrPerLeaf b hm
        simp [PlacedBranch.leafObjs]; omega
      rw [List.map_congr_left this]
      exact Nat.le_refl _)
  refine Emit.bind (c := ()) hleaf ?_ fun _ => rfl
  have htail := ht (fun a => K a ∨ a ∈ bs.flatMap PlacedBranch.addrs) (by
    rintro a ha (h | h)
    · exact hK a (List.mem_append_right _ ha) h
    · exact hdis a h ha)
  refine Emit.congrK (K' := fun a => (K a ∨ a ∈ bs.flatMap PlacedBranch.addrs) ∨ a ∈ S) ?_ (fun _ => Iff.rfl) fun a => by
    simp [or_assoc]
  have := Emit.thenPure (g := fun u => (Pure.pure (t.expected, bs.map (fun b => b.branch.expected (nb b)), u) : Rd _))
    htail rfl
  unfold readTreeTail at this
  simp only [Rd.bind_assoc, Rd.pure_bind] at this ⊢
  exact this

theorem TreeData.emit {ne : Bool} {t : TreeData} (h : t.Storable) {bs : List PlacedBranch}
    {nb : PlacedBranch → Nat} (hb : PlacedOk bs nb) (fuel : Nat) :
    EmitS ne (bs.flatMap PlacedBranch.addrs) (t.marshal bs) id
      (TreeData.unmarshal (readAny (fuel + 3)))
      (t.expected, bs.map (fun b => b.branch.expected (nb b)), none) := by
  refine EmitS.congrS (TreeData.emitWith (S := []) h hb ?_ (by simp)) (by simp)
  intro K hK
  refine Emit.congrK (K' := K) ?_ (fun _ => Iff.rfl) (by simp)
  unfold readTreeTail
  show Emit _ _ _ (Wr.each _ [(), (), (), (), (), (), ()]) _ _ _
  simp only [Wr.each]
  refine Emit.bind (c := ()) Emit.mustBeNil ?_ fun _ => rfl
  refine Emit.bind (c := ()) Emit.mustBeNil ?_ fun _ => rfl
  refine Emit.bind (c := ()) Emit.mustBeNil ?_ fun _ => rfl
  refine Emit.bind (c := ()) Emit.mustBeNil ?_ fun _ => rfl
  refine Emit.bind (c := ()) Emit.mustBeNil ?_ fun _ => rfl
  refine Emit.bind (c := ()) (Emit.nil _) ?_ fun _ => rfl
  simp only [Rd.pure_bind]
  refine Emit.bind (c := ()) Emit.mustBeNil ?_ fun _ => rfl
  exact Emit.pure rfl

end Verif
