import Verif.Spec.UserInfo
import Verif.Lemmas.TreeRecords
import Verif.Lemmas.Refs
import Verif.Props.TreeRecords
/-
C59: the user information of a tree.
-/
namespace Verif

/-! ### Maps -/

def replaced (l : List (Str × Obj)) : List (Str × Obj) :=
  l.foldl (fun m e => m.filter (·.1 ≠ e.1) ++ [e]) []

theorem lookup_filter_ne {β} {k : Str} {l : List (Str × β)} {key : Str} (h : key ≠ k) :
    (l.filter (·.1 ≠ k)).lookup key = l.lookup key := by
  induction l with
  | nil => rfl
  | cons p l ih =>
    obtain ⟨a, b⟩ := p
    by_cases hp : a = k
    · rw [List.filter_cons_of_neg (by simpa using hp), ih, List.lookup_cons]
      rw [show (key == a) = false by rw [hp]; simpa using h]
    · rw [List.filter_cons_of_pos (by simpa using hp), List.lookup_cons, List.lookup_cons, ih]

theorem lookup_filter_self {β} {k : Str} {l : List (Str × β)} : (l.filter (·.1 ≠ k)).lookup k = none := by
  rw [List.lookup_eq_none_iff]
  intro p hp
  have h := (List.mem_filter.1 hp).2
  simpa using fun e : k = p.1 => by simp [e] at h

theorem replaced_lookup (l : List (Str × Obj)) (key : Str) :
    (replaced l).lookup key = (l.reverse.find? fun p => p.1 == key).map Prod.snd := by
  unfold replaced
  rw [← List.foldr_reverse]
  generalize l.reverse = r
  induction r with
  | nil => rfl
  | cons p r ih =>
    rw [List.foldr_cons, List.lookup_append, List.find?_cons]
    by_cases h : p.1 = key
    · subst h
      rw [lookup_filter_self]
      simp [List.lookup]
    · rw [lookup_filter_ne (fun e => h e.symm), ih]
      have : (p.1 == key) = false := by simpa using h
      rw [this]
      have h2 : ([p] : List (Str × Obj)).lookup key = none := by
        rw [List.lookup_eq_none_iff]; intro q hq; rw [List.mem_singleton.1 hq]; simpa using fun e => h e.symm
      rw [h2, Option.or_none]

/-! ### Records -/

theorem Wr.unit_bind {β} (f : Unit → Wr β) : ((pure () : Wr Unit) >>= f) = f () := rfl


/-- What is read for an item. -/
def UserItem.read : UserItem → Obj
  | .text t => .objString TObject.default.afterRead t.s
  | .map _ name pairs => .map TObject.default.afterRead (some name)
      (replaced (pairs.map fun p => (p.1.s, Obj.objString TObject.default.afterRead p.2.s)))

theorem Text.emit {t : Text} (h : t.Ok) (fuel : Nat) :
    EmitS true [t.addr] (Wr.objectAny t.obj) id (readAny (fuel + 1))
      (some (.objString TObject.default.afterRead t.s)) := by
  refine EmitS.objectAny (ret := id) (o := t.obj) (S := []) (build := unmarshalOf (readAny fuel))
    (rd := do let s ← TObjString.unmarshal; pure (.objString s.1 s.2)) ?_ (by simp) rfl (by decide : ClassNameOk (b! "TObjString"))
  refine EmitS.thenPure (v := (TObject.default.afterRead, t.s)) ?_ rfl
  unfold TObjString.unmarshal
  refine EmitS.framed (by decide) fun hd hv => ?_
  rw [Rd.ensureMax_eq (by rw [hv]; decide), Rd.pure_bind]
  intro K hK
  refine Emit.congrK (K' := K) ?_ (fun _ => Iff.rfl) (by simp)
  refine Emit.bind (c := ()) (Emit.obj TObject.default_inRange) ?_ fun _ => rfl
  exact Emit.thenPure (Emit.string (by have := h.2; omega) h.1) rfl

theorem UserItem.emit {x : UserItem} (h : x.Ok) (hn : x.addrs.Nodup) (fuel : Nat) :
    EmitS true x.addrs (Wr.objectAny x.obj) id (readAny (fuel + 2)) (some x.read) := by
  cases x with
  | text t => exact Text.emit h (fuel + 1)
  | map addr name pairs =>
    obtain ⟨h1, h2, h3, h4⟩ := h
    have hn' := List.nodup_cons.1 hn
    refine EmitS.objectAny (ret := id) (o := (UserItem.map addr name pairs).obj) (build := unmarshalOf (readAny (fuel + 1)))
      (rd := TMap.unmarshal (readAny (fuel + 1))) ?_ hn'.1 rfl (by decide : ClassNameOk (b! "TMap"))
    unfold TMap.unmarshal
    refine EmitS.framed (by decide) fun hd hv => ?_
    rw [hv, if_pos (by decide)]
    refine EmitS.bind0 (c := ()) (fun _ _ => (Emit.obj TObject.default_inRange).congrK (fun _ => Iff.rfl) (by simp)) ?_ fun _ => rfl
    dsimp only
    rw [if_pos (by decide), Rd.bind_assoc]
    refine EmitS.bind0 (c := ()) (fun _ _ => (Emit.string (by omega) h1).congrK (fun _ => Iff.rfl) (by simp)) ?_ fun _ => rfl
    rw [Rd.pure_bind]
    refine EmitS.bind0 (c := ()) (fun _ _ => (Emit.i32 (InI4_nat h3)).congrK (fun _ => Iff.rfl) (by simp)) ?_ fun _ => rfl
    rw [Int.toNat_natCast]
    refine EmitS.thenPure (EmitS.each (S := fun p : Text × Text => [p.1.addr, p.2.addr])
      (v := fun p => (p.1.s, Obj.objString TObject.default.afterRead p.2.s)) ?_ (pairwise_of_nodup_flatMap hn'.2)) rfl
    intro p hp
    have hpn := nodup_of_nodup_flatMap hn'.2 hp
    have hne : p.1.addr ≠ p.2.addr := by simpa using hpn
    refine EmitS.bind (S1 := [p.1.addr]) (S2 := [p.2.addr]) (c := ()) (Text.emit (h4 p hp).1 fuel).drop ?_
      (by simpa using hne) fun _ => rfl
    rw [show Rd.orPanic (some (Obj.objString TObject.default.afterRead p.1.s)) =
      pure (Obj.objString TObject.default.afterRead p.1.s) from rfl, Rd.pure_bind]
    refine EmitS.thenPure (Text.emit (h4 p hp).2 fuel).drop rfl

theorem UserItem.read_seen {items : List UserItem} {i : Nat} {x : UserItem} (h : items[i]? = some x) :
    x.SeenAt (items.map UserItem.read) i := by
  have hg : (items.map UserItem.read)[i]? = some x.read := by rw [List.getElem?_map, h]; rfl
  cases x with
  | text t =>
    show listAt _ _ _ = _
    unfold listAt
    rw [hg]
    rfl
  | map addr name pairs =>
    refine ⟨replaced (pairs.map fun p => (p.1.s, Obj.objString TObject.default.afterRead p.2.s)), ?_, fun key => ?_⟩
    · unfold listAt
      rw [hg]
      rfl
    · unfold mapGet lastGiven
      rw [replaced_lookup, ← List.map_reverse, List.find?_map]
      cases hf : List.find? ((fun p : Str × Obj => p.1 == key) ∘ fun p : Text × Text =>
          (p.1.s, Obj.objString TObject.default.afterRead p.2.s)) pairs.reverse with
      | none =>
        rw [show (List.find? (fun p : Text × Text => p.1.s == key) pairs.reverse) = none from hf]
        rfl
      | some p =>
        rw [show (List.find? (fun p : Text × Text => p.1.s == key) pairs.reverse) = some p from hf]
        rfl

/-- C59: the record of a tree with user information as ROOT writes it, whatever the tree, is read with all
its data and branches, the user information has as many items as were attached, in their order, every text
is the one attached, and every map gives for each key the last value stored under it, and nothing for
other keys. -/
theorem C59_user_info_partial (t : TreeData) (bs : List PlacedBranch) (nb : PlacedBranch → Nat) (h : t.Storable)
    (hb : PlacedOk bs nb) (addr : Nat) (name : Str) (hname : utf8 name = true) (hlen : name.length < 2 ^ 30)
    (items : List UserItem) (hi : ∀ x ∈ items, x.Ok) (hfew : items.length < 2 ^ 31)
    (hd : (bs.flatMap PlacedBranch.addrs ++ addr :: items.flatMap UserItem.addrs).Nodup)
    (off : Nat) (pre : List Byte) (fuel : Nat) :
    ∃ obj objs, RoundTripAt off pre (t.withUserInfo bs (userList addr name items))
        (TreeData.unmarshal (readAny (fuel + 3)))
        (t.expected, bs.map (fun b => b.branch.expected (nb b)), some (obj, name, objs)) ∧
      objs.length = items.length ∧ ∀ (i : Nat) (x : UserItem), items[i]? = some x → x.SeenAt objs i := by
  have hd' := List.nodup_append.1 hd
  have hd2 := List.nodup_cons.1 hd'.2.1
  refine ⟨TObject.default.afterRead, items.map UserItem.read, ?_, List.length_map .., fun i x hx => UserItem.read_seen hx⟩
  refine EmitS.roundTripAt (ne := false) (TreeData.emitWith (S := addr :: items.flatMap UserItem.addrs) h hb ?_ ?_)
    (by simp)
  · unfold readTreeTail
    intro K hK
    simp only [Wr.each, Wr.bind_assoc]
    refine Emit.bind (c := ()) Emit.mustBeNil ?_ fun _ => rfl
    refine Emit.bind (c := ()) Emit.mustBeNil ?_ fun _ => rfl
    refine Emit.bind (c := ()) Emit.mustBeNil ?_ fun _ => rfl
    refine Emit.bind (c := ()) Emit.mustBeNil ?_ fun _ => rfl
    refine Emit.bind (c := ()) Emit.mustBeNil ?_ fun _ => rfl
    rw [Wr.unit_bind]
    have hl : EmitS true (items.flatMap UserItem.addrs) (userList addr name items).marshal id
        (do let l ← TList.unmarshal (readAny (fuel + 2)); pure (Obj.list l.1 l.2.1 l.2.2))
        (.list TObject.default.afterRead name (items.map UserItem.read)) := by
      refine EmitS.thenPure (EmitS.list (name := some name) (fun x hx => ?_) (pairwise_of_nodup_flatMap hd2.2)
        TObject.default_inRange (by show name.length < _; omega) hname hfew) rfl
      exact UserItem.emit (hi x hx) (nodup_of_nodup_flatMap hd2.2 hx) fuel
    have hany := EmitS.objectAny (o := userList addr name items) (build := unmarshalOf (readAny (fuel + 2))) hl hd2.1 rfl
      (by decide : ClassNameOk (b! "TList"))
    refine Emit.bind (c := ()) (hany K hK).drop ?_ fun _ => rfl
    simp only [Rd.pure_bind]
    refine Emit.thenPure Emit.mustBeNil rfl
  · intro a ha hb
    exact hd'.2.2 a ha a hb rfl

/-- Two texts and a map where a key is given twice, attached to the tree of the examples of C32. -/
def attachedItems : List UserItem :=
  [.text ⟨900, b! "run"⟩, .text ⟨901, b! "run"⟩,
    .map 902 (b! "m") [(⟨903, b! "k"⟩, ⟨904, b! "a"⟩), (⟨905, b! "l"⟩, ⟨906, []⟩), (⟨907, b! "k"⟩, ⟨908, b! "b"⟩)]]

example : (∀ x ∈ attachedItems, x.Ok) ∧ attachedItems.length < 2 ^ 31 ∧
    (somePlaced.flatMap PlacedBranch.addrs ++ 950 :: attachedItems.flatMap UserItem.addrs).Nodup := by
  refine ⟨?_, by decide, by decide⟩
  intro x hx
  simp only [attachedItems, List.mem_cons, List.not_mem_nil, or_false] at hx
  rcases hx with rfl | rfl | rfl
  · exact ⟨by decide, by decide⟩
  · exact ⟨by decide, by decide⟩
  · refine ⟨by decide, by decide, by decide, ?_⟩
    intro p hp
    simp only [List.mem_cons, List.not_mem_nil, or_false] at hp
    rcases hp with rfl | rfl | rfl <;> exact ⟨⟨by decide, by decide⟩, ⟨by decide, by decide⟩⟩

example : lastGiven [(⟨903, b! "k"⟩, ⟨904, b! "a"⟩), (⟨905, b! "l"⟩, ⟨906, []⟩), (⟨907, b! "k"⟩, ⟨908, b! "b"⟩)] (b! "k") =
    some (b! "b") := by decide

/-! ### What is refused -/

/-- How the reading of a tree with these objects as user information ends. -/
def userInfoFault (objs : List WObj) : Option Fault :=
  match someTree.withUserInfo [] { cls := b! "TList", addr := 950, marshal := TList.marshal TObject.default (some []) objs }
      (WBuffer.holding 0 []) with
  | .error e => some e
  | .ok (_, w) => match TreeData.unmarshal (readAny 10) (RBuffer.over 0 w.p 0) with
    | .error e => some e
    | .ok _ => none

/-- C59 is false for objects that are attached twice: a text that is in the list two times, or that is the
key and the value of a pair, makes the reader abort; and an object of a class the library does not
register, such as `TNamed`, makes the whole tree unreadable.  The same tree with none of them is read. -/
theorem C59_false :
    userInfoFault [Text.obj ⟨1, b! "a"⟩, Text.obj ⟨2, b! "a"⟩] = none ∧
    userInfoFault [Text.obj ⟨1, b! "a"⟩, Text.obj ⟨1, b! "a"⟩] = some .panic ∧
    userInfoFault [(UserItem.map 2 (b! "m") [(⟨1, b! "a"⟩, ⟨1, b! "a"⟩)]).obj] = some .panic ∧
    userInfoFault [{ cls := b! "TNamed", addr := 1, marshal := TNamed.marshal { name := b! "a" } }] =
      some (.err .classNotRegistered) := by
  decide +kernel

end Verif
