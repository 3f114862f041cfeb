import Verif.Lemmas.Refs
import Verif.Model.TreeRecords
/-
C28 (classes by reference), C29 (an object written twice), C30 (TList and TObjArray).
-/
namespace Verif

/-! ### Items used by the examples -/

/-- A `TAttLine` at some address. -/
def lineItem (addr : Nat) (a : AttLine) : Item Obj :=
  { cls := b! "TAttLine", addr := addr, marshal := a.marshal,
    unmarshal := do let a ← AttLine.unmarshal; pure (.attLine a), value := .attLine a }

/-- A `TAttFill` at some address. -/
def fillItem (addr : Nat) (a : AttFill) : Item Obj :=
  { cls := b! "TAttFill", addr := addr, marshal := a.marshal,
    unmarshal := do let a ← AttFill.unmarshal; pure (.attFill a), value := .attFill a }

theorem lineItem_readable (addr : Nat) (a : AttLine) (h : a.InRange) (hc : a.color.Normal) :
    (lineItem addr a).Readable (factory 0) := by
  refine ⟨roundTripNE_of (AttLine.writes a).ne ?_, rfl,
    (by decide : (0 : Byte) ∉ b! "TAttLine"), (by decide : utf8 (b! "TAttLine") = true),
    (by decide : (b! "TAttLine").length ≤ 80)⟩
  have h1 := AttLine.reads h
  rw [show Color.fromI16 a.color.toI16 = a.color from hc] at h1
  exact (Reads.bind (b2 := []) (f := fun a => (pure (.attLine a) : Rd Obj)) h1
    (Reads.pure _)).congr (List.append_nil _)

theorem fillItem_readable (addr : Nat) (a : AttFill) (h : a.InRange) (hc : a.color.Normal) :
    (fillItem addr a).Readable (factory 0) := by
  refine ⟨roundTripNE_of (AttFill.writes a).ne ?_, rfl,
    (by decide : (0 : Byte) ∉ b! "TAttFill"), (by decide : utf8 (b! "TAttFill") = true),
    (by decide : (b! "TAttFill").length ≤ 80)⟩
  have h1 := AttFill.reads h
  rw [show Color.fromI16 a.color.toI16 = a.color from hc] at h1
  exact (Reads.bind (b2 := []) (f := fun a => (pure (.attFill a) : Rd Obj)) h1
    (Reads.pure _)).congr (List.append_nil _)

/-- Two line and two fill attributes, the classes alternating. -/
def someItems : List (Item Obj) :=
  [lineItem 1 ⟨.named .red, 1, 2⟩, fillItem 2 ⟨.named .blue, 1001⟩, lineItem 3 ⟨.int 7, 3, 4⟩,
   fillItem 4 ⟨.int 12, 0⟩]

theorem someItems_readable : ∀ x ∈ someItems, x.Readable (factory 0) := by
  intro x hx
  simp only [someItems, List.mem_cons, List.not_mem_nil, or_false] at hx
  rcases hx with rfl | rfl | rfl | rfl
  · exact lineItem_readable _ _ (by decide) (by decide)
  · exact fillItem_readable _ _ (by decide) (by decide)
  · exact lineItem_readable _ _ (by decide) (by decide)
  · exact fillItem_readable _ _ (by decide) (by decide)

/-! ### C28 -/

/-- C28: any sequence of distinct objects of any registered classes, written by class tag into one
buffer that already holds some bytes, is read back object by object with its own class's reader and
contents, whatever the pattern in which classes repeat. -/
theorem C28_class_references {ο} (factory : Str → Option (Rd ο)) (xs : List (Item ο))
    (hx : ∀ x ∈ xs, x.Readable factory) (hd : (xs.map Item.addr).Nodup)
    (off : Nat) (pre : List Byte) (hpre : pre ≠ []) :
    RoundTripAt off pre (writeItems xs) (readItems factory xs.length)
      (xs.map fun x => some x.value) := by
  have h := (Emit.items xs [] hx).counted
  have hv : ∀ (l : List (Item ο)) (seen : List Nat), (l.map Item.addr).Nodup →
      (∀ a ∈ seen, a ∉ l.map Item.addr) → readValues seen l = l.map fun x => some x.value := by
    intro l
    induction l with
    | nil => intros; rfl
    | cons x l ih =>
      intro seen hn hs
      rw [List.map_cons, List.nodup_cons] at hn
      simp only [readValues, List.map_cons]
      rw [if_neg (fun h => hs _ h (by simp)), ih _ hn.2]
      intro a ha
      rcases List.mem_cons.1 ha with rfl | ha
      · exact hn.1
      · exact fun hm => hs a ha (by simp [hm])
  rw [hv xs [] hd (by simp)] at h
  exact (Emit.congrK h (by simp) (fun _ => Iff.rfl)).roundTripAt fun _ => hpre

example : (someItems.map Item.addr).Nodup ∧ (∀ x ∈ someItems, x.Readable (factory 0)) ∧
    someItems.map Item.cls = [b! "TAttLine", b! "TAttFill", b! "TAttLine", b! "TAttFill"] :=
  ⟨by decide, someItems_readable, rfl⟩

/-- C28 with repetitions: the first time an object (an address) is written its value is read back,
each further time nothing is read, and no other object of the sequence is affected. -/
theorem C28_with_repetitions {ο} (factory : Str → Option (Rd ο)) (xs : List (Item ο))
    (hx : ∀ x ∈ xs, x.Readable factory) (off : Nat) (pre : List Byte) (hpre : pre ≠ []) :
    ∃ vs : List (Option ο), vs.length = xs.length ∧
      (∀ (i : Nat) (x : Item ο), xs[i]? = some x →
        ((∃ (j : Nat) (y : Item ο), j < i ∧ xs[j]? = some y ∧ y.addr = x.addr) → vs[i]? = some none) ∧
        ((∀ (j : Nat) (y : Item ο), j < i → xs[j]? = some y → y.addr ≠ x.addr) → vs[i]? = some (some x.value))) ∧
      RoundTripAt off pre (writeItems xs) (readItems factory xs.length) vs := by
  refine ⟨readValues [] xs, readValues_length xs [], fun i x hix => ?_, ?_⟩
  · obtain ⟨h1, h2⟩ := readValues_get xs [] i x hix
    exact ⟨fun h => h1 (Or.inr h), fun h => h2 (by simp) h⟩
  · exact (Emit.congrK (Emit.items xs [] hx).counted (by simp)
      (fun _ => Iff.rfl)).roundTripAt fun _ => hpre

example : ∃ (xs : List (Item Obj)), (∀ x ∈ xs, x.Readable (factory 0)) ∧
    ¬ (xs.map Item.addr).Nodup ∧ 4 < xs.length :=
  ⟨someItems ++ someItems, fun x hx => by
    rcases List.mem_append.1 hx with h | h <;> exact someItems_readable x h, by decide, by decide⟩

/-- C28, error branch: a class that is not registered is an error for the reader, not a wrong value:
the tag of a new class followed by a name the factory does not know. -/
theorem C28_unregistered_class {ο} (factory : Str → Option (Rd ο)) (cls : Str) (post : List Byte)
    (h0 : (0 : Byte) ∉ cls) (hu : utf8 cls = true) (hl : cls.length ≤ 80)
    (hf : factory cls = none) (off : Nat) (pre : List Byte) (n : Nat) (hn : n < 2 ^ 30) :
    Rd.objectAny factory (RBuffer.over off
      (pre ++ (beBytes 4 (2 ^ 30 + n) ++ (beBytes 4 (2 ^ 32 - 1) ++ (cls ++ [0] ++ post)))) pre.length)
      = .error (.err .classNotRegistered) := by
  refine objectAny_unregistered h0 hu hl hf hn ?_ rfl ?_
  · simp [RBuffer.over]
  · exact ⟨post, by simp [RBuffer.over, RBuffer.rest]⟩

example : factory 3 (b! "TH1D") = none ∧ (0 : Byte) ∉ b! "TH1D" ∧ utf8 (b! "TH1D") = true ∧
    (b! "TH1D").length ≤ 80 := ⟨rfl, by decide, by decide, by decide⟩

/-! ### C29 -/

/-- C29 fails: whatever the object, writing it twice and reading twice gives the object and then
nothing. -/
theorem C29_second_occurrence_lost {ο} (factory : Str → Option (Rd ο)) (x : Item ο)
    (hx : x.Readable factory) (off : Nat) (pre : List Byte) (hpre : pre ≠ []) :
    RoundTripAt off pre (writeItems [x, x]) (readItems factory 2) [some x.value, none] := by
  have h := (Emit.items [x, x] [] (by simpa using hx)).counted
  have : readValues [] [x, x] = [some x.value, none] := by simp [readValues]
  rw [this] at h
  exact (Emit.congrK h (by simp) (fun _ => Iff.rfl)).roundTripAt fun _ => hpre

example : (lineItem 1 ⟨.named .red, 1, 2⟩).Readable (factory 0) :=
  lineItem_readable _ _ (by decide) (by decide)

/-- C29 fails badly for lists: a `TList` in which some object occurs twice is written without error,
and reading it back aborts. -/
theorem C29_list_read_aborts {ο} (factory : Str → Option (Rd ο)) (xs : List (Item ο))
    (hx : ∀ x ∈ xs, x.Readable factory) (hd : ¬ (xs.map Item.addr).Nodup)
    (name : Option Str) (hn : (name.getD []).length < 2 ^ 31) (hu : utf8 (name.getD []) = true)
    (hlen : xs.length < 2 ^ 31) (off : Nat) (pre : List Byte) :
    ∃ (bs : List Byte) (w' : WBuffer),
      TList.marshal TObject.default name (xs.map Item.obj) (WBuffer.holding off pre) =
        .ok (bs.length, w') ∧ w'.p = pre ++ bs ∧
      (off + (pre ++ bs).length < 2 ^ 30 → ∀ post : List Byte,
        TList.unmarshal (Rd.objectAny factory) (RBuffer.over off (pre ++ bs ++ post) pre.length) =
          .error .panic) := by
  have h := Emit.listWith (ne := false) (Emit.listItems xs [] hx) TObject.default_inRange hn hu
    (by simpa using hlen)
  obtain ⟨bs, w', e, hp, _, hr⟩ := (Emit.congrK h (L := fun _ => False) (by simp)
    (fun _ => Iff.rfl)).roundTripAt (off := off) (pre := pre) (by simp)
  refine ⟨bs, w', e, hp, fun hlt post => ?_⟩
  obtain ⟨r', hr', _⟩ := hr hlt post
  exact TList.unmarshal_of_hole hr' (none_mem_readValues xs [] (Or.inr hd))

example : ∃ (xs : List (Item Obj)), (∀ x ∈ xs, x.Readable (factory 0)) ∧
    ¬ (xs.map Item.addr).Nodup ∧ xs.length = 8 :=
  ⟨someItems ++ someItems, fun x hx => by
    rcases List.mem_append.1 hx with h | h <;> exact someItems_readable x h, by decide, by decide⟩

/-! ### C30 -/

/-- C30, TList: a list of distinct objects, with any name, is read back with the same elements in the
same order and the same name, ending at the end of the record. -/
theorem C30_list {ο} (factory : Str → Option (Rd ο)) (xs : List (Item ο))
    (hx : ∀ x ∈ xs, x.Readable factory) (hd : (xs.map Item.addr).Nodup)
    (name : Option Str) (hn : (name.getD []).length < 2 ^ 31) (hu : utf8 (name.getD []) = true)
    (hlen : xs.length < 2 ^ 31) (off : Nat) (pre : List Byte) :
    RoundTripAt off pre (TList.marshal TObject.default name (xs.map Item.obj))
      (TList.unmarshal (Rd.objectAny factory))
      (TObject.default, name.getD [], xs.map Item.value) := by
  have := EmitS.list (ne := false) (any := Rd.objectAny factory) (l := xs) (f := Item.obj)
    (S := fun x => [x.addr]) (val := Item.value) (obj := TObject.default) (name := name)
    (fun x h => (hx x h).emit) ?_ TObject.default_inRange hn hu hlen
  · exact this.roundTripAt (by simp)
  · rw [List.nodup_iff_pairwise_ne, List.pairwise_map] at hd
    exact hd.imp fun h a ha hb => h (by simp at ha hb; rw [← ha, hb])

example : ∃ (xs : List (Item Obj)) (name : Option Str), (∀ x ∈ xs, x.Readable (factory 0)) ∧
    (xs.map Item.addr).Nodup ∧ (name.getD []).length < 2 ^ 31 ∧ utf8 (name.getD []) = true ∧
    xs.length = 4 :=
  ⟨someItems, some (b! "attributes"), someItems_readable, by decide, by decide, by decide, rfl⟩

/-- C30, TObjArray: the same, with the lower bound. -/
theorem C30_objarray {ο} (factory : Str → Option (Rd ο)) (xs : List (Item ο))
    (hx : ∀ x ∈ xs, x.Readable factory) (hd : (xs.map Item.addr).Nodup)
    (name : Option Str) (hn : (name.getD []).length < 2 ^ 31) (hu : utf8 (name.getD []) = true)
    (low : Int) (hlow : InI 4 low)
    (hlen : xs.length < 2 ^ 31) (off : Nat) (pre : List Byte) :
    RoundTripAt off pre (TObjArray.marshal TObject.default name low (xs.map Item.obj))
      (TObjArray.unmarshal (Rd.objectAny factory))
      (TObject.default, some (name.getD []), low, xs.map Item.value) := by
  have h := EmitS.objects (any := Rd.objectAny factory) (l := xs) (f := Item.obj)
    (S := fun x => [x.addr]) (val := fun x => some x.value) (fun x h => (hx x h).emit) ?_
  · have := Emit.objArray (ne := false) (h (fun _ => False) (by simp)) TObject.default_inRange hlow
      hn hu (by simpa using hlen)
    have e : (xs.map fun x => some x.value).filterMap id = xs.map Item.value := by
      simp [List.filterMap_map, Function.comp_def]
    rw [e] at this
    exact this.roundTripAt (by simp)
  · rw [List.nodup_iff_pairwise_ne, List.pairwise_map] at hd
    exact hd.imp fun h a ha hb => h (by simp at ha hb; rw [← ha, hb])

example : InI 4 (-3) ∧ (∀ x ∈ someItems, x.Readable (factory 0)) ∧ (someItems.map Item.addr).Nodup :=
  ⟨by decide, someItems_readable, by decide⟩

end Verif
