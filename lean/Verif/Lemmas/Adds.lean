import Verif.Lemmas.Counts
/-
How many bytes the records take at most.
-/
namespace Verif

/-- `m` appends at most `N` bytes. -/
def Adds {α} (m : Wr α) (N : Nat) : Prop :=
  ∀ (w w' : WBuffer) (a : α), m w = .ok (a, w') → w'.p.length ≤ w.p.length + N

theorem Adds.le {α} {m : Wr α} {N M : Nat} (h : Adds m N) (hl : N ≤ M) : Adds m M := fun w w' a he => by
  have := h w w' a he
  omega

theorem Adds.pure {α} (a : α) : Adds (Pure.pure a : Wr α) 0 := by
  intro w w' b he
  cases he
  exact Nat.le_refl _

theorem Adds.fail {α} (e : Err) : Adds (Wr.fail e : Wr α) 0 := fun _ _ _ h => nomatch h
theorem Adds.panic {α} : Adds (Wr.panic : Wr α) 0 := fun _ _ _ h => nomatch h

theorem Adds.bind {α β} {m : Wr α} {f : α → Wr β} {M N : Nat} (h1 : Adds m M) (h2 : ∀ a, Adds (f a) N) :
    Adds (m >>= f) (M + N) := by
  intro w w'' b he
  obtain ⟨a, w', ha, hb⟩ := Wr.bind_inv he
  have := h1 w w' a ha
  have := h2 a w' w'' b hb
  omega

theorem Adds.ite {α} {c : Prop} [Decidable c] {m n : Wr α} {M N : Nat} (h1 : Adds m M) (h2 : Adds n N) :
    Adds (if c then m else n) (M + N) := by
  split
  · exact h1.le (by omega)
  · exact h2.le (by omega)

theorem Adds.bytes (bs : List Byte) : Adds (Wr.bytes bs) bs.length := by
  intro w w' a he
  cases he
  show (w.p ++ bs).length ≤ _
  rw [List.length_append]
  exact Nat.le_refl _

theorem Adds.bytesOf {bs : List Byte} {n : Nat} (h : bs.length = n) : Adds (Wr.bytes bs) n := h ▸ .bytes bs

theorem Adds.state {α} {m : Wr α} (h : ∀ w w' a, m w = .ok (a, w') → w'.p = w.p) : Adds m 0 := by
  intro w w' a he
  rw [h w w' a he]
  exact Nat.le_refl _

theorem Adds.pos : Adds Wr.pos 0 := .state fun w w' a h => by cases h; rfl
theorem Adds.refP (a) : Adds (Wr.refP a) 0 := .state fun w w' a h => by cases h; rfl
theorem Adds.refS (a) : Adds (Wr.refS a) 0 := .state fun w w' a h => by cases h; rfl
theorem Adds.setRefP (a b) : Adds (Wr.setRefP a b) 0 := .state fun w w' a h => by cases h; rfl
theorem Adds.setRefS (a b) : Adds (Wr.setRefS a b) 0 := .state fun w w' a h => by cases h; rfl
theorem Adds.lenMinusOne : Adds Wr.lenMinusOne 0 := .state fun w w' a h => by
  unfold Wr.lenMinusOne at h
  split at h
  · cases h
  · cases h; rfl

theorem Adds.inPlace (bs : List Byte) (n : Nat) : Adds (Wr.inPlace bs n) 0 := by
  intro w w' a h
  unfold Wr.inPlace at h
  split at h
  · cases h
  · split at h
    · next hl =>
      cases h
      simp only [List.length_append, List.length_take, List.length_drop]
      omega
    · cases h

theorem Adds.each {α} {f : α → Wr Unit} (N : α → Nat) (l : List α) (h : ∀ a ∈ l, Adds (f a) (N a)) :
    Adds (Wr.each f l) (l.map N).sum := by
  induction l with
  | nil => exact .pure _
  | cons a as ih =>
    rw [List.map_cons, List.sum_cons]
    exact (h a (by simp)).bind fun _ => ih fun b hb => h b (by simp [hb])

theorem Adds.each_const {α} {f : α → Wr Unit} {N : Nat} (l : List α) (h : ∀ a ∈ l, Adds (f a) N) :
    Adds (Wr.each f l) (N * l.length) := by
  induction l with
  | nil => exact .pure _
  | cons a as ih =>
    refine ((h a (by simp)).bind fun _ => ih fun b hb => h b (by simp [hb])).le ?_
    rw [List.length_cons, Nat.mul_add]
    omega

theorem Adds.drop {α} {m : Wr α} {N : Nat} (h : Adds m N) : Adds (Wr.drop m) N :=
  (h.bind fun _ => .pure _).le (Nat.le_refl _)

theorem Adds.u8 (v) : Adds (Wr.u8 v) 1 := .bytesOf (beBytes_length _ _)
theorem Adds.u16 (v) : Adds (Wr.u16 v) 2 := .bytesOf (beBytes_length _ _)
theorem Adds.u32 (v) : Adds (Wr.u32 v) 4 := .bytesOf (beBytes_length _ _)
theorem Adds.u64 (v) : Adds (Wr.u64 v) 8 := .bytesOf (beBytes_length _ _)
theorem Adds.i8 (v) : Adds (Wr.i8 v) 1 := .bytesOf (beBytes_length _ _)
theorem Adds.i16 (v) : Adds (Wr.i16 v) 2 := .bytesOf (beBytes_length _ _)
theorem Adds.i32 (v) : Adds (Wr.i32 v) 4 := .bytesOf (beBytes_length _ _)
theorem Adds.i64 (v) : Adds (Wr.i64 v) 8 := .bytesOf (beBytes_length _ _)
theorem Adds.f32 (v) : Adds (Wr.f32 v) 4 := .bytesOf (beBytes_length _ _)
theorem Adds.f64 (v) : Adds (Wr.f64 v) 8 := .bytesOf (beBytes_length _ _)
theorem Adds.bool (v) : Adds (Wr.bool v) 1 := by cases v <;> exact .bytesOf (beBytes_length _ _)

theorem Adds.string (s : Str) : Adds (Wr.string s) (s.length + 5) := by
  unfold Wr.string
  dsimp only
  split
  · refine (Adds.bind (Adds.u8 _) fun _ => ?_ : Adds _ (1 + s.length)).le (by omega)
    split
    · exact .bytes _
    · exact (Adds.pure _).le (Nat.zero_le _)
  · exact (Adds.bind (Adds.u8 _) fun _ => Adds.bind (Adds.u32 _) fun _ => Adds.bytes _).le (by omega)

theorem Adds.cstring (s : Str) : Adds (Wr.cstring s) (s.length + 1) :=
  (Adds.bytes _).bind fun _ => .bytesOf rfl

theorem Adds.objectNil : Adds Wr.objectNil 4 := ((Adds.u32 _).bind fun _ => .pure _).le (Nat.le_refl _)

theorem Adds.counted {m : Wr Unit} {N : Nat} (h : Adds m N) : Adds (Wr.counted m) N := by
  unfold Wr.counted
  exact (Adds.pos.bind fun _ => h.bind fun _ => Adds.pos.bind fun _ => .pure _).le (by omega)

theorem Adds.framed {vers : Int} {body : Wr Unit} {N : Nat} (h : Adds body N) :
    Adds (Wr.framed vers body) (N + 6) := by
  intro w w' n he
  unfold Wr.framed at he
  rw [Wr.bind_ok (Wr.header_eq vers w)] at he
  obtain ⟨a, w1, h1, he⟩ := Wr.bind_inv he
  have h2 := h _ _ _ h1
  unfold Wr.setHeader at he
  rw [Wr.bind_ok (a := w1.c + w1.offset) (w' := w1) rfl] at he
  obtain ⟨u, w2, h3, he⟩ := Wr.bind_inv he
  cases he
  have h4 := Adds.inPlace _ _ _ _ _ h3
  simp [beBytes_length] at h2
  omega

theorem Adds.writeClass (beg : Nat) {o : WObj} {N : Nat} (h : Adds o.marshal N) :
    Adds (Wr.writeClass beg o) (o.cls.length + 5 + N) := by
  unfold Wr.writeClass
  refine (Adds.bind Adds.lenMinusOne fun _ => Adds.bind Adds.pos fun start =>
    Adds.bind (Adds.refP _) fun r => (?_ : Adds _ (o.cls.length + 5 + N))).le (by omega)
  cases r with
  | some r => exact (Adds.bind (Adds.u32 _) fun _ => Adds.pos.bind fun _ => .pure _).le (by omega)
  | none =>
    refine (Adds.bind (Adds.refS _) fun r => (?_ : Adds _ (o.cls.length + 5 + N))).le (by omega)
    cases r with
    | some r =>
      exact (Adds.bind (Adds.u32 _) fun _ => h.drop.bind fun _ => (Adds.setRefP _ _).bind fun _ =>
        Adds.pos.bind fun _ => .pure _).le (by omega)
    | none =>
      exact (Adds.bind (Adds.u32 _) fun _ => (Adds.cstring _).bind fun _ =>
        (Adds.setRefS _ _).bind fun _ => (Adds.setRefP _ _).bind fun _ => h.drop.bind fun _ =>
        Adds.pos.bind fun _ => .pure _).le (by omega)

theorem Adds.objectAny {o : WObj} {N : Nat} (h : Adds o.marshal N) :
    Adds (Wr.objectAny o) (o.cls.length + 9 + N) := by
  unfold Wr.objectAny
  exact (Adds.pos.bind fun _ => Adds.lenMinusOne.bind fun _ => Adds.bind (Adds.u32 _) fun _ =>
    Adds.bind (Adds.writeClass _ h) fun _ => Adds.bind (Adds.inPlace _ _) fun _ =>
    Adds.pos.bind fun _ => .pure _).le (by omega)

theorem Adds.afterCheck {m : Wr Nat} {N : Nat} (h : Adds m N) : Adds (do Wr.lenMinusOne; m) N :=
  (Adds.lenMinusOne.bind fun _ => h).le (by omega)

theorem Adds.leafPut (k : LeafKind) (v : Int) : Adds (k.put v) 8 := by
  cases k <;> refine Adds.le (Adds.bytes _) ?_ <;> simp [beBytes_length]

/-- Bounds the bytes a `do` block appends. -/
syntax "adds" : tactic
macro_rules | `(tactic| adds) => `(tactic| repeat' first
  | with_reducible exact Adds.pure _
  | with_reducible exact Adds.panic | with_reducible exact Adds.fail _
  | with_reducible exact Adds.string _
  | with_reducible exact Adds.lenMinusOne
  | with_reducible exact Adds.objectNil
  | with_reducible exact Adds.leafPut _ _
  | (with_reducible show Adds _ _; with_reducible assumption)
  | with_reducible exact Adds.bytes _
  | with_reducible exact Adds.u8 _
  | with_reducible exact Adds.u16 _
  | with_reducible exact Adds.u32 _
  | with_reducible exact Adds.u64 _
  | with_reducible exact Adds.i8 _
  | with_reducible exact Adds.i16 _
  | with_reducible exact Adds.i32 _
  | with_reducible exact Adds.i64 _
  | with_reducible exact Adds.f32 _
  | with_reducible exact Adds.f64 _
  | with_reducible exact Adds.bool _
  | with_reducible apply Adds.drop
  | with_reducible apply Adds.counted
  | with_reducible apply Adds.framed
  | with_reducible apply Adds.afterCheck
  | with_reducible apply Adds.bind
  | with_reducible apply Adds.ite
  | (intro x; try clear x))

theorem TObject.adds (o : TObject) : Adds o.marshal 20 := by
  apply Adds.le
  · unfold TObject.marshal; adds
  · omega

theorem TNamed.adds (n : TNamed) : Adds n.marshal (n.name.length + n.title.length + 36) := by
  have := n.obj.adds
  apply Adds.le
  · unfold TNamed.marshal; adds
  · omega

theorem AttLine.adds (a : AttLine) : Adds a.marshal 20 := by
  apply Adds.le
  · unfold AttLine.marshal; adds
  · omega
theorem AttFill.adds (a : AttFill) : Adds a.marshal 20 := by
  apply Adds.le
  · unfold AttFill.marshal; adds
  · omega
theorem AttMarker.adds (a : AttMarker) : Adds a.marshal 20 := by
  apply Adds.le
  · unfold AttMarker.marshal; adds
  · omega
theorem TioFeatures.adds (v : Nat) : Adds (TioFeatures.marshal v) 20 := by
  apply Adds.le
  · unfold TioFeatures.marshal; adds
  · simp only [List.length_cons, List.length_nil]; omega

theorem StreamerElement.adds (e : StreamerElement) :
    Adds e.marshal (e.named.name.length + e.named.title.length + e.ename.length + 4 * e.maxIdx.length + 63) := by
  have := e.named.adds
  have h : Adds (Wr.each Wr.i32 e.maxIdx) (4 * e.maxIdx.length) := Adds.each_const _ fun _ _ => .i32 _
  apply Adds.le
  · unfold StreamerElement.marshal; adds
  · omega

/-- The most bytes an element can take. -/
def Streamer.cap (s : Streamer) : Nat :=
  let e := s.element
  e.named.name.length + e.named.title.length + e.ename.length + 4 * e.maxIdx.length +
    (match s with | .basicPointer _ _ n c => n.length + c.length | _ => 0) + 100

theorem Streamer.adds (s : Streamer) : Adds s.marshal s.cap := by
  have := s.element.adds
  cases s <;> dsimp only [Streamer.element] at this <;>
    first
    | exact Adds.panic.le (Nat.zero_le _)
    | (apply Adds.le
       · unfold Streamer.marshal; adds
       · simp only [Streamer.cap, Streamer.element]; omega)

theorem TList.adds (o : TObject) (objs : List WObj) (N : Nat)
    (h : ∀ x ∈ objs, Adds x.marshal N ∧ x.cls.length ≤ 30) :
    Adds (TList.marshal o none objs) ((N + 44) * objs.length + 35) := by
  have h1 := o.adds
  have h2 : Adds (Wr.each (fun o => do
      Wr.drop (Wr.objectAny o)
      Wr.string []) objs) ((N + 44) * objs.length) := Adds.each_const _ fun x hx =>
    (((Adds.objectAny (h x hx).1).drop.bind fun _ => .string _).le (by
      have := (h x hx).2
      simp only [List.length_nil]
      omega))
  apply Adds.le
  · unfold TList.marshal; adds
  · simp only [Option.getD_none, List.length_nil]; omega

theorem TObjArray.adds (o : TObject) (low) (objs : List WObj) (N : Nat)
    (h : ∀ x ∈ objs, Adds x.marshal N ∧ x.cls.length ≤ 30) :
    Adds (TObjArray.marshal o none low objs) ((N + 39) * objs.length + 39) := by
  have h1 := o.adds
  have h2 : Adds (Wr.each (fun o => Wr.drop (Wr.objectAny o)) objs) ((N + 39) * objs.length) :=
    Adds.each_const _ fun x hx => (Adds.objectAny (h x hx).1).drop.le (by
      have := (h x hx).2
      omega)
  apply Adds.le
  · unfold TObjArray.marshal; adds
  · simp only [Option.getD_none, List.length_nil]; omega

theorem Streamer.cls_short (s : Streamer) : s.cls.length ≤ 30 := by
  cases s <;> exact Nat.le_of_ble_eq_true rfl

/-- The most bytes a class record can take. -/
def StreamerInfo.cap (s : StreamerInfo) : Nat :=
  s.named.name.length + s.named.title.length + ((s.elems.map fun e => e.cap + 39).sum + 39) + 68

theorem TObjArray.adds_sum {α} (o : TObject) (low) (l : List α) (obj : α → WObj) (N : α → Nat)
    (h : ∀ x ∈ l, Adds (obj x).marshal (N x) ∧ (obj x).cls.length ≤ 30) :
    Adds (TObjArray.marshal o none low (l.map obj)) ((l.map fun x => N x + 39).sum + 39) := by
  have h1 := o.adds
  have h2 : Adds (Wr.each (fun o => Wr.drop (Wr.objectAny o)) (l.map obj)) (l.map fun x => N x + 39).sum := by
    induction l with
    | nil => exact .pure _
    | cons x l ih =>
      rw [List.map_cons, List.map_cons, List.sum_cons]
      have hx := h x (List.mem_cons_self ..)
      exact ((Adds.objectAny hx.1).drop.le (by have := hx.2; omega)).bind fun _ =>
        ih fun y hy => h y (List.mem_cons_of_mem _ hy)
  apply Adds.le
  · unfold TObjArray.marshal; adds
  · simp only [Option.getD_none, List.length_nil]; omega

theorem StreamerInfo.adds (s : StreamerInfo) : Adds s.marshal s.cap := by
  have h1 := s.named.adds
  have h2 : Adds s.elemsObj.marshal ((s.elems.map fun e => e.cap + 39).sum + 39) :=
    Adds.afterCheck (TObjArray.adds_sum _ _ _ (fun e : Streamer =>
      { cls := e.cls, addr := e.element.id, marshal := e.marshal }) _ fun e _ => ⟨e.adds, e.cls_short⟩)
  have h3 := Adds.objectAny h2
  apply Adds.le
  · unfold StreamerInfo.marshal; adds
  · have : s.elemsObj.cls.length = 9 := rfl
    unfold StreamerInfo.cap
    omega

/-! ### Trees -/

theorem TLeaf.adds (t : TLeaf) : Adds t.marshal (t.named.name.length + t.named.title.length + 60) := by
  have := t.named.adds
  apply Adds.le
  · unfold TLeaf.marshal; adds
  · omega

/-- The most bytes a leaf can take. -/
def Leaf.cap (l : Leaf) : Nat := l.tleaf.named.name.length + l.tleaf.named.title.length + 82

theorem Leaf.adds (l : Leaf) : Adds l.marshal l.cap := by
  have := l.tleaf.adds
  cases l <;> dsimp only [Leaf.tleaf] at this <;>
    first
    | exact Adds.panic.le (Nat.zero_le _)
    | (apply Adds.le
       · unfold Leaf.marshal; adds
       · simp only [Leaf.cap, Leaf.tleaf]; omega)

theorem Leaf.cls_short (l : Leaf) : l.cls.length ≤ 30 := by
  cases l with
  | var k _ _ _ _ => cases k <;> exact Nat.le_of_ble_eq_true rfl
  | _ => exact Nat.le_of_ble_eq_true rfl

theorem Branch.cls_short (b : Branch) : b.cls.length ≤ 30 := by
  unfold Branch.cls
  split <;> decide

theorem Adds.paddedTable {put : Int → Wr Unit} {N : Nat} (hp : ∀ v, Adds (put v) N) (v n m) :
    Adds (Wr.paddedTable put v n m) (N * n.toNat + N * (m - n).toNat + 1) := by
  have h1 : ∀ l, Adds (Wr.each put l) (N * l.length) := fun l => Adds.each_const _ fun _ _ => hp _
  have h2 : Adds (Wr.each put (v.take n.toNat)) (N * n.toNat) :=
    (h1 _).le (Nat.mul_le_mul_left _ (by rw [List.length_take]; omega))
  have h3 : Adds (Wr.each put (List.replicate (m - n).toNat 0)) (N * (m - n).toNat) :=
    (h1 _).le (Nat.mul_le_mul_left _ (by simp))
  apply Adds.le
  · unfold Wr.paddedTable; adds
  · omega

/-- The most bytes the leaves of a branch can take. -/
def leavesCap (ls : List Leaf) : Nat := (ls.map fun l => l.cap + 39).sum + 39

theorem map_zip_fst {α β} (q : α → Nat) : ∀ (as : List α) (bs : List β),
    ((as.zip bs).map fun p => q p.1).sum ≤ (as.map q).sum
  | [], _ => by simp
  | a :: as, [] => by simp
  | a :: as, b :: bs => by
    have := map_zip_fst q as bs
    simp only [List.zip_cons_cons, List.map_cons, List.sum_cons]
    omega

theorem leaves_adds (ls : List Leaf) (addrs : List Nat) :
    Adds (TObjArray.marshal TObject.default none 0
      ((ls.zip addrs).map fun p => { cls := p.1.cls, addr := p.2, marshal := p.1.marshal })) (leavesCap ls) := by
  refine (TObjArray.adds_sum _ _ _ (fun p : Leaf × Nat =>
    { cls := p.1.cls, addr := p.2, marshal := p.1.marshal }) (fun p => p.1.cap)
    fun p _ => ⟨p.1.adds, p.1.cls_short⟩).le ?_
  have := map_zip_fst (fun l : Leaf => l.cap + 39) ls addrs
  unfold leavesCap
  omega

/-- The most bytes a branch can take. -/
def BranchData.cap (d : BranchData) : Nat :=
  d.named.name.length + d.named.title.length + leavesCap d.leaves + 20 * d.writeBasket.toNat + d.fname.length + 500

theorem BranchData.adds (d : BranchData) (sub) (addrs) (hw : 0 ≤ d.writeBasket) :
    Adds (d.marshal sub addrs) d.cap := by
  have h1 := d.named.adds
  have h2 := d.attfill.adds
  have h3 := TioFeatures.adds d.iobits
  have h4 : Adds (TObjArray.marshal TObject.default none 0 []) 39 :=
    (TObjArray.adds _ _ _ 0 (by simp)).le (Nat.le_refl _)
  have h5 := leaves_adds d.leaves addrs
  have i1 := Adds.paddedTable Adds.i32 d.basketBytes d.writeBasket (bMaxBaskets d.writeBasket)
  have i2 := Adds.paddedTable Adds.i64 d.basketEntry (d.writeBasket + 1) (bMaxBaskets d.writeBasket)
  have i3 := Adds.paddedTable Adds.i64 d.basketSeek d.writeBasket (bMaxBaskets d.writeBasket)
  apply Adds.le
  · unfold BranchData.marshal; adds
  · unfold BranchData.cap bMaxBaskets
    split <;> omega

/-- The most bytes a branch of a vector can take. -/
def Branch.cap (b : Branch) : Nat :=
  b.data.cap + (match b.elem with
    | none => 0
    | some e => e.className.length + e.parent.length + e.clones.length + 60)

theorem Branch.adds (b : Branch) (addrs) (hw : 0 ≤ b.data.writeBasket) : Adds (b.marshal addrs) b.cap := by
  have h := b.data.adds b.branches addrs hw
  unfold Branch.marshal Branch.cap
  refine .afterCheck ?_
  cases b.elem with
  | none => exact h
  | some e =>
    dsimp only
    apply Adds.le
    · adds
    · omega

/-- The most bytes the record of a tree can take. -/
def treeCap (tn : Str) (bs : List PlacedBranch) : Nat :=
  tn.length + (bs.map fun b => b.branch.cap + 39).sum + (bs.map fun b => leavesCap b.branch.data.leaves).sum + 500

theorem leafObjs_adds : ∀ (bs : List PlacedBranch),
    Adds (Wr.each (fun o => Wr.drop (Wr.objectAny o)) (bs.flatMap PlacedBranch.leafObjs))
      (bs.map fun b => leavesCap b.branch.data.leaves).sum
  | [] => .pure _
  | b :: bs => by
    have h1 : ∀ (ls : List Leaf) (as : List Nat) (rest : List WObj) (N : Nat),
        Adds (Wr.each (fun o => Wr.drop (Wr.objectAny o)) rest) N →
        Adds (Wr.each (fun o => Wr.drop (Wr.objectAny o)) (((ls.zip as).map fun p =>
          { cls := p.1.cls, addr := p.2, marshal := p.1.marshal }) ++ rest)) ((ls.map fun l => l.cap + 39).sum + N) := by
      intro ls
      induction ls with
      | nil => exact fun as rest N h => h.le (Nat.le_add_left ..)
      | cons l ls ih =>
        intro as rest N h
        cases as with
        | nil => exact h.le (Nat.le_add_left ..)
        | cons a as =>
          rw [List.zip_cons_cons, List.map_cons, List.map_cons, List.sum_cons, List.cons_append]
          refine Adds.le (N := (l.cap + 39) + ((ls.map fun l => l.cap + 39).sum + N)) ?_ (by omega)
          refine Adds.bind ?_ fun _ => ih as rest N h
          refine (Adds.objectAny (o := { cls := l.cls, addr := a, marshal := l.marshal }) l.adds).drop.le ?_
          have := l.cls_short
          show l.cls.length + 9 + l.cap ≤ _
          omega
    have h2 := h1 b.branch.data.leaves b.leafAddrs _ _ (leafObjs_adds bs)
    rw [List.flatMap_cons, List.map_cons, List.sum_cons]
    refine Adds.le (show Adds _ _ from h2) ?_
    unfold leavesCap
    omega

theorem TreeData.adds (t : TreeData) (bs : List PlacedBranch) (hb : ∀ b ∈ bs, 0 ≤ b.branch.data.writeBasket) :
    Adds (t.marshal bs) (treeCap t.named.name bs + t.named.title.length + 8 * t.clusterRanges.length +
      8 * t.clusterSizes.length) := by
  have h1 := t.named.adds
  have h2 := t.attline.adds
  have h3 := t.attfill.adds
  have h4 := t.attmarker.adds
  have h5 := TioFeatures.adds t.iobits
  have i1 : Adds (Wr.each Wr.i64 t.clusterRanges) (8 * t.clusterRanges.length) := Adds.each_const _ fun _ _ => .i64 _
  have i2 : Adds (Wr.each Wr.i64 t.clusterSizes) (8 * t.clusterSizes.length) := Adds.each_const _ fun _ _ => .i64 _
  have i3 : Adds (Wr.each (fun _ => Wr.drop Wr.objectNil) (List.replicate 7 ())) 28 :=
    (Adds.each_const _ fun _ _ => Adds.objectNil.drop).le (by decide)
  have i4 := TObjArray.adds_sum TObject.default 0 bs PlacedBranch.obj (fun b => b.branch.cap) fun b hm =>
    ⟨b.branch.adds _ (hb b hm), b.branch.cls_short⟩
  have i5 : Adds (TObjArray.marshal TObject.default none 0 (bs.flatMap PlacedBranch.leafObjs))
      ((bs.map fun b => leavesCap b.branch.data.leaves).sum + 39) := by
    have h1 := TObject.default.adds
    have h2 := leafObjs_adds bs
    apply Adds.le
    · unfold TObjArray.marshal; adds
    · simp only [Option.getD_none, List.length_nil]; omega
  apply Adds.le
  · unfold TreeData.marshal TreeData.marshalWith; adds
  · unfold treeCap; omega

end Verif
