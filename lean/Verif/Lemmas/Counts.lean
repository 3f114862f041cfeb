import Verif.Lemmas.Steady
/-
Every object of the writer counts the bytes it appends.
-/
namespace Verif

theorem Steady.u8 (v) : Steady (Wr.u8 v) := .bytes _
theorem Steady.u16 (v) : Steady (Wr.u16 v) := .bytes _
theorem Steady.u32 (v) : Steady (Wr.u32 v) := .bytes _
theorem Steady.u64 (v) : Steady (Wr.u64 v) := .bytes _
theorem Steady.i8 (v) : Steady (Wr.i8 v) := .bytes _
theorem Steady.i16 (v) : Steady (Wr.i16 v) := .bytes _
theorem Steady.i32 (v) : Steady (Wr.i32 v) := .bytes _
theorem Steady.i64 (v) : Steady (Wr.i64 v) := .bytes _
theorem Steady.f32 (v) : Steady (Wr.f32 v) := .bytes _
theorem Steady.f64 (v) : Steady (Wr.f64 v) := .bytes _
theorem Steady.bool (v) : Steady (Wr.bool v) := .bytes _

theorem Steady.datetime (t : Nat) : Steady (Wr.datetime t) := by
  intro w w' a hw he
  unfold Wr.datetime at he
  split at he
  · exact Steady.bytes _ w w' a hw he
  · cases he

theorem Steady.seek (b : Bool) (v : Int) : Steady (Wr.seek b v) := by
  unfold Wr.seek
  split <;> exact Steady.bytes _

theorem Steady.leafPut (k : LeafKind) (v : Int) : Steady (k.put v) := by
  cases k <;> exact Steady.bytes _

macro_rules | `(tactic| steady) => `(tactic| repeat' first
  | with_reducible exact Steady.pure _
  | with_reducible exact Steady.panic | with_reducible exact Steady.fail _
  | with_reducible exact Steady.string _
  | with_reducible exact Steady.lenMinusOne
  | with_reducible exact Steady.objectNil
  | with_reducible exact Steady.datetime _ | with_reducible exact Steady.seek _ _
  | with_reducible exact Steady.leafPut _ _
  | with_reducible assumption
  | with_reducible exact Honest.steady (by assumption)
  | with_reducible exact Steady.bytes _
  | with_reducible exact Steady.u8 _
  | with_reducible exact Steady.u16 _
  | with_reducible exact Steady.u32 _
  | with_reducible exact Steady.u64 _
  | with_reducible exact Steady.i8 _
  | with_reducible exact Steady.i16 _
  | with_reducible exact Steady.i32 _
  | with_reducible exact Steady.i64 _
  | with_reducible exact Steady.f32 _
  | with_reducible exact Steady.f64 _
  | with_reducible exact Steady.bool _
  | with_reducible refine Steady.drop ?_
  | with_reducible refine Steady.bind ?_ fun _ => ?_
  | with_reducible refine Steady.ite ?_ ?_)

theorem Ty.steady : (t : Ty) → (v : t.Val) → Steady (t.put v)
  | .bool, _ => .bytes _
  | .i8, _ => .bytes _
  | .i16, _ => .bytes _
  | .i32, _ => .bytes _
  | .i64, _ => .bytes _
  | .u8, _ => .bytes _
  | .u16, _ => .bytes _
  | .u32, _ => .bytes _
  | .u64, _ => .bytes _
  | .f32, _ => .bytes _
  | .f64, _ => .bytes _
  | .string, _ => Steady.string _
  | .vec t, _ => (Steady.bytes _).bind fun _ => Steady.each _ fun v _ => Ty.steady t v
  | .arr _ t, _ => Steady.each _ fun v _ => Ty.steady t v

theorem Ty.honest (t : Ty) (v : t.Val) : Honest (t.marshal v) := .counted (t.steady v)

theorem TObject.honest (o : TObject) : Honest o.marshal := by
  refine .counted ?_
  steady

theorem TNamed.honest (n : TNamed) : Honest n.marshal := by
  have := n.obj.honest
  refine .afterCheck (.framed ?_)
  steady

theorem AttLine.honest (a : AttLine) : Honest a.marshal := by
  refine .framed ?_
  steady
theorem AttFill.honest (a : AttFill) : Honest a.marshal := by
  refine .framed ?_
  steady
theorem AttMarker.honest (a : AttMarker) : Honest a.marshal := by
  refine .framed ?_
  steady
theorem TioFeatures.honest (v : Nat) : Honest (TioFeatures.marshal v) := by
  refine .framed ?_
  steady
theorem Key.honest (k : Key) : Honest k.marshal := by
  refine .counted ?_
  steady
theorem FreeSegments.honest (k : FreeSegments) : Honest k.marshal := by
  refine .counted ?_
  steady
theorem FileHeader.honest (k : FileHeader) : Honest k.marshal := by
  refine .counted ?_
  dsimp only
  steady
theorem Dir.honest (k : Dir) : Honest k.marshal := by
  refine .counted ?_
  steady
theorem StreamerElement.honest (e : StreamerElement) : Honest e.marshal := by
  have := e.named.honest
  have h : Steady (Wr.each Wr.i32 e.maxIdx) := Steady.each _ fun _ _ => .bytes _
  refine .afterCheck (.framed ?_)
  steady
theorem Streamer.honest (s : Streamer) : Honest s.marshal := by
  have := s.element.honest
  cases s <;> dsimp only [Streamer.element] at this <;>
    first
    | exact Honest.panic
    | (refine .afterCheck (.framed ?_); steady)
theorem TList.honest (o : TObject) (name) (objs : List WObj) (h : ∀ x ∈ objs, Steady x.marshal) :
    Honest (TList.marshal o name objs) := by
  have h1 := o.honest
  have h2 : Steady (Wr.each (fun o => do
      Wr.drop (Wr.objectAny o)
      Wr.string []) objs) := Steady.each _ fun x hx =>
    (Honest.objectAny (h x hx)).steady.drop.bind fun _ => .string _
  refine .counted (.drop (Honest.steady (.framed ?_)))
  steady
theorem TObjArray.honest (o : TObject) (name low) (objs : List WObj) (h : ∀ x ∈ objs, Steady x.marshal) :
    Honest (TObjArray.marshal o name low objs) := by
  have h1 := o.honest
  have h2 : Steady (Wr.each (fun o => Wr.drop (Wr.objectAny o)) objs) := Steady.each _ fun x hx =>
    (Honest.objectAny (h x hx)).steady.drop
  refine .framed ?_
  steady
theorem StreamerInfo.honest (s : StreamerInfo) : Honest s.marshal := by
  have h1 := s.named.honest
  have h2 : Honest (Wr.objectAny s.elemsObj) := by
    refine .objectAny (Honest.steady (.afterCheck (TObjArray.honest _ _ _ _ ?_)))
    intro x hx
    obtain ⟨e, -, rfl⟩ := List.mem_map.mp hx
    exact e.honest.steady
  refine .afterCheck (.framed ?_)
  steady
theorem TLeaf.honest (t : TLeaf) : Honest t.marshal := by
  have := t.named.honest
  refine .afterCheck (.framed ?_)
  steady
theorem Leaf.honest (l : Leaf) : Honest l.marshal := by
  have := l.tleaf.honest
  cases l <;> dsimp only [Leaf.tleaf] at this <;>
    first
    | exact Honest.panic
    | (refine .afterCheck (.framed ?_); steady)
theorem Basket.honest (b : Basket) : Honest b.marshal := by
  have := b.key.honest
  refine .counted ?_
  steady
theorem Steady.paddedTable {put : Int → Wr Unit} (hp : ∀ v, Steady (put v)) (v n m) :
    Steady (Wr.paddedTable put v n m) := by
  have h1 : ∀ l, Steady (Wr.each put l) := fun l => Steady.each _ fun _ _ => hp _
  have h2 := h1 (v.take n.toNat)
  have h3 := h1 (List.replicate (m - n).toNat 0)
  unfold Wr.paddedTable
  steady
theorem BranchData.honest (d : BranchData) (sub) (addrs) : Honest (d.marshal sub addrs) := by
  have h1 := d.named.honest
  have h2 := d.attfill.honest
  have h3 := TioFeatures.honest d.iobits
  have h4 : Honest (TObjArray.marshal TObject.default none 0 []) := TObjArray.honest _ _ _ _ (by simp)
  have h5 : Honest (TObjArray.marshal TObject.default none 0
          ((d.leaves.zip addrs).map fun p =>
            { cls := p.1.cls, addr := p.2, marshal := p.1.marshal })) := by
    refine TObjArray.honest _ _ _ _ fun x hx => ?_
    obtain ⟨p, -, rfl⟩ := List.mem_map.mp hx
    exact p.1.honest.steady
  have h6 := fun v n m => Steady.paddedTable (put := Wr.i32) (fun v => .bytes _) v n m
  have h7 := fun v n m => Steady.paddedTable (put := Wr.i64) (fun v => .bytes _) v n m
  have i1 := h6 d.basketBytes d.writeBasket (bMaxBaskets d.writeBasket)
  have i2 := h7 d.basketEntry (d.writeBasket + 1) (bMaxBaskets d.writeBasket)
  have i3 := h7 d.basketSeek d.writeBasket (bMaxBaskets d.writeBasket)
  refine .afterCheck (.counted (.drop (Honest.steady (.framed ?_))))
  steady
theorem Branch.honest (b : Branch) (addrs) : Honest (b.marshal addrs) := by
  have h := b.data.honest b.branches addrs
  unfold Branch.marshal
  refine .afterCheck ?_
  split
  · exact h
  · refine .counted (.drop (Honest.steady (.framed ?_)))
    steady
theorem TreeData.honest (t : TreeData) (bs) : Honest (t.marshal bs) := by
  have h1 := t.named.honest
  have h2 := t.attline.honest
  have h3 := t.attfill.honest
  have h4 := t.attmarker.honest
  have h5 := TioFeatures.honest t.iobits
  have i1 : Steady (Wr.each Wr.i64 t.clusterRanges) := Steady.each _ fun _ _ => .i64 _
  have i2 : Steady (Wr.each Wr.i64 t.clusterSizes) := Steady.each _ fun _ _ => .i64 _
  have i3 : Steady (Wr.each (fun _ => Wr.drop Wr.objectNil) (List.replicate 7 ())) :=
    Steady.each _ fun _ _ => Steady.objectNil.drop
  have i4 := TObjArray.honest TObject.default none 0 (bs.map PlacedBranch.obj) fun x hx => by
    obtain ⟨b, -, rfl⟩ := List.mem_map.mp hx
    exact (b.branch.honest _).steady
  have i5 := TObjArray.honest TObject.default none 0 (bs.flatMap PlacedBranch.leafObjs) fun x hx => by
    obtain ⟨b, -, hx⟩ := List.mem_flatMap.mp hx
    obtain ⟨p, -, rfl⟩ := List.mem_map.mp hx
    exact p.1.honest.steady
  refine .framed ?_
  steady


theorem Marshalling.honest {m : Wr Nat} (h : Marshalling m) : Honest m := by
  induction h with
  | value t v => exact t.honest v
  | tobject o => exact o.honest
  | named n => exact n.honest
  | attLine a => exact a.honest
  | attFill a => exact a.honest
  | attMarker a => exact a.honest
  | ioFeatures n => exact TioFeatures.honest n
  | key k => exact k.honest
  | segment s => exact s.honest
  | fileHeader h => exact h.honest
  | dir d => exact d.honest
  | streamerElement e => exact e.honest
  | streamer s => exact s.honest
  | streamerInfo s => exact s.honest
  | list o name objs _ ih => exact TList.honest _ _ _ fun x hx => (ih x hx).steady
  | objArray o name low objs _ ih => exact TObjArray.honest _ _ _ _ fun x hx => (ih x hx).steady
  | tleaf t => exact t.honest
  | leaf l => exact l.honest
  | basket b => exact b.honest
  | branch b addrs => exact b.honest addrs
  | tree t bs => exact t.honest bs
  | tagged o _ ih => exact .objectAny ih.steady

end Verif
