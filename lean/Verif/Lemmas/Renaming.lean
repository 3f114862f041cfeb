import Verif.Model.TreeWrite
/-
The addresses of the objects in memory do not show in what is written: only which of them are the same
does.
-/
namespace Verif

/-- Two write buffers that differ only in the addresses of the objects known to them. -/
structure Renamed (R : Nat → Nat → Prop) (w w' : WBuffer) : Prop where
  p : w'.p = w.p
  c : w'.c = w.c
  offset : w'.offset = w.offset
  refsS : w'.refsS = w.refsS
  refsP : ∀ a b, R a b → w'.refsP.lookup b = w.refsP.lookup a

/-- On such buffers, the two do the same. -/
def Agree (R : Nat → Nat → Prop) {α} (m m' : Wr α) : Prop := ∀ w w', Renamed R w w' →
  (∃ e, m w = .error e ∧ m' w' = .error e) ∨
    ∃ a v v', m w = .ok (a, v) ∧ m' w' = .ok (a, v') ∧ Renamed R v v'

/-- Related addresses are equal on the one side exactly when they are on the other. -/
def BiUnique (R : Nat → Nat → Prop) : Prop := ∀ a b c d, R a b → R c d → (a = c ↔ b = d)

namespace Agree

variable {R : Nat → Nat → Prop}

theorem bind {α β} {m m' : Wr α} {k k' : α → Wr β} (h : Agree R m m') (hk : ∀ a, Agree R (k a) (k' a)) :
    Agree R (m >>= k) (m' >>= k') := by
  intro w w' hw
  show (∃ e, (match m w with | .ok (a, w') => k a w' | .error e => .error e) = .error e ∧
      (match m' w' with | .ok (a, w') => k' a w' | .error e => .error e) = .error e) ∨
    ∃ a v v', (match m w with | .ok (a, w') => k a w' | .error e => .error e) = .ok (a, v) ∧
      (match m' w' with | .ok (a, w') => k' a w' | .error e => .error e) = .ok (a, v') ∧ Renamed R v v'
  rcases h w w' hw with ⟨e, h1, h2⟩ | ⟨a, v, v', h1, h2, hv⟩
  · rw [h1, h2]; exact .inl ⟨e, rfl, rfl⟩
  · rw [h1, h2]; exact hk a v v' hv

theorem pure {α} (a : α) : Agree R (Pure.pure a) (Pure.pure a) := fun w w' h => .inr ⟨a, w, w', rfl, rfl, h⟩
theorem panic {α} : Agree R (Wr.panic : Wr α) Wr.panic := fun _ _ _ => .inl ⟨.panic, rfl, rfl⟩
theorem fail {α} (e : Err) : Agree R (Wr.fail e : Wr α) (Wr.fail e) := fun _ _ _ => .inl ⟨.err e, rfl, rfl⟩
theorem ite {α} {c : Prop} [Decidable c] {m m' n n' : Wr α} (h1 : c → Agree R m m') (h2 : ¬ c → Agree R n n') :
    Agree R (if c then m else n) (if c then m' else n') := by
  split
  · next h => exact h1 h
  · next h => exact h2 h

theorem bytes (bs : List Byte) : Agree R (Wr.bytes bs) (Wr.bytes bs) := fun w w' h =>
  .inr ⟨(), _, _, rfl, rfl, by
    obtain ⟨h1, h2, h3, h4, h5⟩ := h
    exact ⟨by show w'.p ++ bs = w.p ++ bs; rw [h1], by show w'.c + _ = w.c + _; rw [h2], h3, h4, h5⟩⟩

theorem pos : Agree R Wr.pos Wr.pos := fun w w' h =>
  .inr ⟨w.c + w.offset, w, w', rfl, by show Except.ok (w'.c + w'.offset, w') = _; rw [h.c, h.offset], h⟩

theorem lenMinusOne : Agree R Wr.lenMinusOne Wr.lenMinusOne := fun w w' h => by
  unfold Wr.lenMinusOne
  rw [h.p]
  split
  · exact .inl ⟨_, rfl, rfl⟩
  · exact .inr ⟨(), w, w', rfl, rfl, h⟩

theorem inPlace (bs : List Byte) (n : Nat) : Agree R (Wr.inPlace bs n) (Wr.inPlace bs n) := fun w w' h => by
  unfold Wr.inPlace
  rw [h.p, h.offset]
  split
  · exact .inl ⟨_, rfl, rfl⟩
  · split
    · exact .inr ⟨(), _, _, rfl, rfl, ⟨rfl, h.c, rfl, h.refsS, h.refsP⟩⟩
    · exact .inl ⟨_, rfl, rfl⟩

theorem refS (s : Str) : Agree R (Wr.refS s) (Wr.refS s) := fun w w' h =>
  .inr ⟨_, w, w', rfl, by unfold Wr.refS; rw [h.refsS], h⟩

theorem setRefS (s : Str) (n : Nat) : Agree R (Wr.setRefS s n) (Wr.setRefS s n) := fun w w' h =>
  .inr ⟨(), _, _, rfl, rfl, ⟨h.p, h.c, h.offset, by show _ :: _ = _ :: _; rw [h.refsS], h.refsP⟩⟩

theorem refP {a b : Nat} (h : R a b) : Agree R (Wr.refP a) (Wr.refP b) := fun w w' hw =>
  .inr ⟨_, w, w', rfl, by unfold Wr.refP; rw [hw.refsP a b h], hw⟩

theorem setRefP (hR : BiUnique R) {a b : Nat} (h : R a b) (n : Nat) : Agree R (Wr.setRefP a n) (Wr.setRefP b n) :=
  fun w w' hw => .inr ⟨(), _, _, rfl, rfl, ⟨hw.p, hw.c, hw.offset, hw.refsS, fun x y hxy => by
    show List.lookup y ((b, n) :: w'.refsP) = List.lookup x ((a, n) :: w.refsP)
    rw [List.lookup_cons, List.lookup_cons, hw.refsP x y hxy]
    have := hR x y a b hxy h
    by_cases hx : x = a
    · rw [beq_iff_eq.2 hx, beq_iff_eq.2 (this.1 hx)]
    · rw [beq_eq_false_iff_ne.2 hx, beq_eq_false_iff_ne.2 (fun hy => hx (this.2 hy))]⟩⟩

theorem drop {α} {m m' : Wr α} (h : Agree R m m') : Agree R (Wr.drop m) (Wr.drop m') := h.bind fun _ => pure _

theorem each {α} {f : α → Wr Unit} (l : List α) (h : ∀ a, Agree R (f a) (f a)) :
    Agree R (Wr.each f l) (Wr.each f l) := by
  induction l with
  | nil => exact pure _
  | cons a as ih => exact (h a).bind fun _ => ih

theorem header (vers : Int) : Agree R (Wr.header vers) (Wr.header vers) :=
  bind pos fun _ => bind (bytes _) fun _ => bind (bytes _) fun _ => pure _

theorem setHeader (x : Wr.WHeader) : Agree R (Wr.setHeader x) (Wr.setHeader x) :=
  bind pos fun _ => bind (inPlace _ _) fun _ => pure _

theorem counted {m m' : Wr Unit} (h : Agree R m m') : Agree R (Wr.counted m) (Wr.counted m') :=
  bind pos fun _ => bind h fun _ => bind pos fun _ => pure _

theorem framed {vers : Int} {m m' : Wr Unit} (h : Agree R m m') : Agree R (Wr.framed vers m) (Wr.framed vers m') :=
  bind (header _) fun _ => bind h fun _ => setHeader _

theorem string (s : Str) : Agree R (Wr.string s) (Wr.string s) := by
  unfold Wr.string
  dsimp only
  exact ite (fun _ => bind (bytes _) fun _ => ite (fun _ => bytes _) fun _ => pure _)
    (fun _ => bind (bytes _) fun _ => bind (bytes _) fun _ => bytes _)

theorem objectNil : Agree R Wr.objectNil Wr.objectNil := bind (bytes _) fun _ => pure _

theorem writeClass (hR : BiUnique R) (beg : Nat) {o o' : WObj} (hc : o'.cls = o.cls) (ha : R o.addr o'.addr)
    (hm : Agree R o.marshal o'.marshal) : Agree R (Wr.writeClass beg o) (Wr.writeClass beg o') := by
  unfold Wr.writeClass
  rw [hc]
  refine bind lenMinusOne fun _ => bind pos fun _ => bind (refP ha) fun r => ?_
  cases r with
  | some r => exact bind (bytes _) fun _ => bind pos fun _ => pure _
  | none =>
    refine bind (refS _) fun r => ?_
    cases r with
    | some r =>
      exact bind (bytes _) fun _ => bind hm.drop fun _ => bind (setRefP hR ha _) fun _ => bind pos fun _ => pure _
    | none =>
      exact bind (bytes _) fun _ => bind (bind (bytes _) fun _ => bytes _) fun _ => bind (setRefS _ _) fun _ =>
        bind (setRefP hR ha _) fun _ => bind hm.drop fun _ => bind pos fun _ => pure _

theorem objectAny (hR : BiUnique R) {o o' : WObj} (hc : o'.cls = o.cls) (ha : R o.addr o'.addr)
    (hm : Agree R o.marshal o'.marshal) : Agree R (Wr.objectAny o) (Wr.objectAny o') :=
  bind pos fun _ => bind lenMinusOne fun _ => bind (bytes _) fun _ => bind (writeClass hR _ hc ha hm) fun _ =>
    bind (inPlace _ _) fun _ => bind pos fun _ => pure _

end Agree

/-- The same objects at other addresses. -/
inductive SameObjs (R : Nat → Nat → Prop) : List WObj → List WObj → Prop
  | nil : SameObjs R [] []
  | cons {o o' : WObj} {l l' : List WObj} : o'.cls = o.cls → R o.addr o'.addr → Agree R o.marshal o'.marshal →
      SameObjs R l l' → SameObjs R (o :: l) (o' :: l')

theorem SameObjs.length {R : Nat → Nat → Prop} {l l' : List WObj} (h : SameObjs R l l') : l'.length = l.length := by
  induction h with
  | nil => rfl
  | cons _ _ _ _ ih => rw [List.length_cons, List.length_cons, ih]

theorem SameObjs.append {R : Nat → Nat → Prop} {l l' k k' : List WObj} (h : SameObjs R l l') (h' : SameObjs R k k') :
    SameObjs R (l ++ k) (l' ++ k') := by
  induction h with
  | nil => exact h'
  | cons h1 h2 h3 _ ih => exact .cons h1 h2 h3 ih

namespace Agree

variable {R : Nat → Nat → Prop}

theorem eachObj {g : WObj → Wr Unit} {l l' : List WObj} (hl : SameObjs R l l')
    (h : ∀ o o' : WObj, o'.cls = o.cls → R o.addr o'.addr → Agree R o.marshal o'.marshal → Agree R (g o) (g o')) :
    Agree R (Wr.each g l) (Wr.each g l') := by
  induction hl with
  | nil => exact pure _
  | cons h1 h2 h3 _ ih => exact (h _ _ h1 h2 h3).bind fun _ => ih

theorem tobject (o : TObject) : Agree R o.marshal o.marshal :=
  counted (bind (bytes _) fun _ => ite (fun _ => bind (bytes _) fun _ => bind (bytes _) fun _ => bytes _)
    (fun _ => bind (bytes _) fun _ => bytes _))

theorem tlist (hR : BiUnique R) (obj : TObject) (name : Option Str) {l l' : List WObj} (hl : SameObjs R l l') :
    Agree R (TList.marshal obj name l) (TList.marshal obj name l') := by
  unfold TList.marshal
  rw [hl.length]
  exact counted (drop (framed (bind (tobject _).drop fun _ => bind (string _) fun _ => bind (bytes _) fun _ =>
    eachObj hl fun o o' h1 h2 h3 => bind (objectAny hR h1 h2 h3).drop fun _ => string _)))

theorem tobjArray (hR : BiUnique R) (obj : TObject) (name : Option Str) (low : Int) {l l' : List WObj}
    (hl : SameObjs R l l') : Agree R (TObjArray.marshal obj name low l) (TObjArray.marshal obj name low l') := by
  unfold TObjArray.marshal
  rw [hl.length]
  exact framed (bind (tobject _).drop fun _ => bind (string _) fun _ => ite (fun _ => fail _) fun _ =>
    bind (bytes _) fun _ => bind (bytes _) fun _ => eachObj hl fun o o' h1 h2 h3 => (objectAny hR h1 h2 h3).drop)

theorem tnamed (n : TNamed) : Agree R n.marshal n.marshal :=
  bind lenMinusOne fun _ => framed (bind (tobject _).drop fun _ => bind (string _) fun _ => string _)

/-! ### Class records -/

theorem element (e : StreamerElement) : Agree R e.marshal e.marshal :=
  bind lenMinusOne fun _ => framed (bind (tnamed _).drop fun _ => bind (bytes _) fun _ => bind (bytes _) fun _ =>
    bind (bytes _) fun _ => bind (bytes _) fun _ => bind (each _ fun _ => bytes _) fun _ => string _)

theorem streamer (s : Streamer) : Agree R s.marshal s.marshal := by
  cases s
  all_goals first
    | exact panic
    | exact bind lenMinusOne fun _ => framed (element _).drop
    | exact bind lenMinusOne fun _ => framed (bind (element _).drop fun _ => bytes _)
    | exact bind lenMinusOne fun _ => framed (bind (element _).drop fun _ => bind (bytes _) fun _ => bytes _)
    | exact bind lenMinusOne fun _ => framed (bind (element _).drop fun _ => bind (bytes _) fun _ =>
        bind (string _) fun _ => string _)

/-! ### Trees -/

theorem attLine (x : AttLine) : Agree R x.marshal x.marshal :=
  framed (bind (bytes _) fun _ => bind (bytes _) fun _ => bytes _)
theorem attFill (x : AttFill) : Agree R x.marshal x.marshal := framed (bind (bytes _) fun _ => bytes _)
theorem attMarker (x : AttMarker) : Agree R x.marshal x.marshal :=
  framed (bind (bytes _) fun _ => bind (bytes _) fun _ => bytes _)
theorem tioFeatures (v : Nat) : Agree R (TioFeatures.marshal v) (TioFeatures.marshal v) :=
  framed (ite (fun _ => bind (bytes _) fun _ => bytes _) fun _ => bind (pure _) fun _ => bytes _)

theorem leafPut (k : LeafKind) (v : Int) : Agree R (k.put v) (k.put v) := by cases k <;> exact bytes _

theorem tleaf (t : TLeaf) : Agree R t.marshal t.marshal :=
  bind lenMinusOne fun _ => framed (bind (tnamed _).drop fun _ => bind (bytes _) fun _ => bind (bytes _) fun _ =>
    bind (bytes _) fun _ => bind (bytes _) fun _ => bind (bytes _) fun _ => ite (fun _ => panic) fun _ => objectNil.drop)

theorem leaf (l : Leaf) : Agree R l.marshal l.marshal := by
  cases l with
  | base _ => exact panic
  | element _ t _ _ =>
    exact bind lenMinusOne fun _ => framed (bind (tleaf _).drop fun _ => bind (bytes _) fun _ => bytes _)
  | var k _ t _ _ =>
    exact bind lenMinusOne fun _ => framed (bind (tleaf _).drop fun _ => bind (leafPut _ _) fun _ => leafPut _ _)

theorem paddedTable (f : Int → Wr Unit) (h : ∀ a, Agree R (f a) (f a)) (v : List Int) (n m : Int) :
    Agree R (Wr.paddedTable f v n m) (Wr.paddedTable f v n m) :=
  ite (fun _ => panic) fun _ => bind (bytes _) fun _ => bind (each _ h) fun _ =>
    ite (fun _ => panic) fun _ => each _ h

end Agree

/-- Addresses of the same objects. -/
inductive SameAddrs (R : Nat → Nat → Prop) : List Nat → List Nat → Prop
  | nil : SameAddrs R [] []
  | cons {a b : Nat} {l l' : List Nat} : R a b → SameAddrs R l l' → SameAddrs R (a :: l) (b :: l')

theorem SameAddrs.objs {R : Nat → Nat → Prop} {l l' : List Nat} (h : SameAddrs R l l') (leaves : List Leaf) :
    SameObjs R ((leaves.zip l).map fun p => { cls := p.1.cls, addr := p.2, marshal := p.1.marshal })
      ((leaves.zip l').map fun p => { cls := p.1.cls, addr := p.2, marshal := p.1.marshal }) := by
  induction h generalizing leaves with
  | nil => rw [List.zip_nil_right]; exact .nil
  | cons h _ ih =>
    cases leaves with
    | nil => exact .nil
    | cons x xs => exact .cons rfl h (Agree.leaf _) (ih xs)

/-- The same branches at other addresses. -/
inductive SameBranches (R : Nat → Nat → Prop) : List PlacedBranch → List PlacedBranch → Prop
  | nil : SameBranches R [] []
  | cons {b b' : PlacedBranch} {l l' : List PlacedBranch} : b'.branch = b.branch → R b.addr b'.addr →
      SameAddrs R b.leafAddrs b'.leafAddrs → SameBranches R l l' → SameBranches R (b :: l) (b' :: l')

namespace Agree

variable {R : Nat → Nat → Prop}

theorem branchData (hR : BiUnique R) (d : BranchData) (sub : List Branch) {l l' : List Nat} (h : SameAddrs R l l') :
    Agree R (d.marshal sub l) (d.marshal sub l') :=
  bind lenMinusOne fun _ => counted (drop (framed (bind (tnamed _).drop fun _ => bind (attFill _).drop fun _ =>
    bind (bytes _) fun _ => bind (bytes _) fun _ => bind (bytes _) fun _ => bind (bytes _) fun _ =>
    bind (bytes _) fun _ => bind (tioFeatures _).drop fun _ => bind (bytes _) fun _ => bind (bytes _) fun _ =>
    bind (bytes _) fun _ => bind (bytes _) fun _ => bind (bytes _) fun _ => bind (bytes _) fun _ =>
    bind (bytes _) fun _ => ite (fun _ => panic) fun _ => bind (tobjArray hR _ _ _ .nil).drop fun _ =>
    bind (tobjArray hR _ _ _ (h.objs _)).drop fun _ => ite (fun _ => panic) fun _ =>
    bind (tobjArray hR _ _ _ .nil).drop fun _ => bind (paddedTable _ (fun _ => bytes _) _ _ _) fun _ =>
    bind (paddedTable _ (fun _ => bytes _) _ _ _) fun _ => bind (paddedTable _ (fun _ => bytes _) _ _ _) fun _ =>
    string _)))

theorem branch (hR : BiUnique R) (b : Branch) {l l' : List Nat} (h : SameAddrs R l l') :
    Agree R (b.marshal l) (b.marshal l') := by
  unfold Branch.marshal
  refine bind lenMinusOne fun _ => ?_
  cases b.elem with
  | none => exact branchData hR _ _ h
  | some e =>
    exact counted (drop (framed (bind (branchData hR _ _ h).drop fun _ => bind (string _) fun _ =>
      bind (string _) fun _ => bind (string _) fun _ => bind (bytes _) fun _ => bind (bytes _) fun _ =>
      bind (bytes _) fun _ => bind (bytes _) fun _ => bind (bytes _) fun _ => bind (bytes _) fun _ =>
      bind objectNil.drop fun _ => objectNil.drop)))

end Agree

theorem SameBranches.objs {R : Nat → Nat → Prop} (hR : BiUnique R) {l l' : List PlacedBranch} (h : SameBranches R l l') :
    SameObjs R (l.map PlacedBranch.obj) (l'.map PlacedBranch.obj) := by
  induction h with
  | nil => exact .nil
  | cons h1 h2 h3 _ ih =>
    refine .cons ?_ h2 ?_ ih
    · unfold PlacedBranch.obj; rw [h1]
    · unfold PlacedBranch.obj; rw [h1]; exact Agree.branch hR _ h3

theorem SameBranches.leaves {R : Nat → Nat → Prop} {l l' : List PlacedBranch} (h : SameBranches R l l') :
    SameObjs R (l.flatMap PlacedBranch.leafObjs) (l'.flatMap PlacedBranch.leafObjs) := by
  induction h with
  | nil => exact .nil
  | cons h1 h2 h3 _ ih =>
    rw [List.flatMap_cons, List.flatMap_cons]
    refine SameObjs.append ?_ ih
    unfold PlacedBranch.leafObjs
    rw [h1]
    exact h3.objs _

namespace Agree

variable {R : Nat → Nat → Prop}

theorem tree (hR : BiUnique R) (t : TreeData) {l l' : List PlacedBranch} (h : SameBranches R l l') :
    Agree R (t.marshal l) (t.marshal l') :=
  framed (bind (tnamed _).drop fun _ => bind (attLine _).drop fun _ => bind (attFill _).drop fun _ =>
    bind (attMarker _).drop fun _ => bind (bytes _) fun _ => bind (bytes _) fun _ => bind (bytes _) fun _ =>
    bind (bytes _) fun _ => bind (bytes _) fun _ => bind (bytes _) fun _ => bind (bytes _) fun _ =>
    bind (bytes _) fun _ => bind (bytes _) fun _ => bind (bytes _) fun _ => ite (fun _ => fail _) fun _ =>
    bind (bytes _) fun _ => bind (bytes _) fun _ => bind (bytes _) fun _ => bind (bytes _) fun _ =>
    bind (bytes _) fun _ => bind (bytes _) fun _ => bind (bytes _) fun _ => bind (bytes _) fun _ =>
    bind (each _ fun _ => bytes _) fun _ => bind (bytes _) fun _ => bind (each _ fun _ => bytes _) fun _ =>
    bind (tioFeatures _).drop fun _ => bind (tobjArray hR _ _ _ (h.objs hR)).drop fun _ =>
    bind (tobjArray hR _ _ _ h.leaves).drop fun _ => each _ fun _ => objectNil.drop)

end Agree

/-! ### Class records with other numbers -/

/-- An element with another number. -/
def Streamer.shift (δ : Nat) (s : Streamer) : Streamer := s.withId (s.element.id + δ)

/-- A record with other numbers. -/
def StreamerInfo.shift (δ : Nat) (s : StreamerInfo) : StreamerInfo :=
  { s with elems := s.elems.map (Streamer.shift δ), id := s.id + δ }

theorem Streamer.withId_id (n : Nat) (s : Streamer) : (s.withId n).element.id = n := by cases s <;> rfl
theorem Streamer.withId_cls (n : Nat) (s : Streamer) : (s.withId n).cls = s.cls := by cases s <;> rfl
theorem Streamer.withId_withId (n m : Nat) (s : Streamer) : (s.withId n).withId m = s.withId m := by cases s <;> rfl
theorem Streamer.withId_marshal (n : Nat) (s : Streamer) : (s.withId n).marshal = s.marshal := by cases s <;> rfl

theorem shift_elems {R : Nat → Nat → Prop} {δ : Nat} (es : List Streamer)
    (h : ∀ e ∈ es, R e.element.id (e.element.id + δ)) :
    SameObjs R (es.map fun e => { cls := e.cls, addr := e.element.id, marshal := e.marshal })
      ((es.map (Streamer.shift δ)).map fun e => { cls := e.cls, addr := e.element.id, marshal := e.marshal }) := by
  induction es with
  | nil => exact .nil
  | cons e es ih =>
    refine .cons (Streamer.withId_cls _ _) ?_ ?_ (ih fun x hx => h x (List.mem_cons_of_mem _ hx))
    · show R _ ((e.withId (e.element.id + δ)).element.id)
      rw [Streamer.withId_id]
      exact h e (List.mem_cons_self ..)
    · show Agree R e.marshal (e.withId (e.element.id + δ)).marshal
      rw [Streamer.withId_marshal]
      exact Agree.streamer _

theorem Agree.info {R : Nat → Nat → Prop} (hR : BiUnique R) {δ : Nat} {s : StreamerInfo} (hs : R s.id (s.id + δ))
    (h : ∀ e ∈ s.elems, R e.element.id (e.element.id + δ)) : Agree R s.marshal (s.shift δ).marshal :=
  bind lenMinusOne fun _ => framed (bind (tnamed _).drop fun _ => bind (bytes _) fun _ => bind (bytes _) fun _ =>
    (objectAny hR (o := s.elemsObj) (o' := (s.shift δ).elemsObj) rfl hs
      (bind lenMinusOne fun _ => tobjArray hR _ _ _ (shift_elems _ h))).drop)

end Verif
