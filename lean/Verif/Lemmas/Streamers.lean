import Verif.Spec.Streamers
import Verif.Lemmas.Refs
import Verif.Model.TreeRecords
namespace Verif

theorem TObject.Plain.afterRead {o : TObject} (h : o.Plain) : o.afterRead = o := by
  have ht : o.testBits kIsReferenced = false := by
    unfold TObject.testBits
    have := and_two_pow_ne_zero o.bits 4
    rw [h.2.2.2] at this
    simp only [show kIsReferenced = 2 ^ 4 from rfl]
    simpa using this
  have h1 : o.bits ||| kIsOnHeap = o.bits := by
    apply Nat.eq_of_testBit_eq
    intro j
    rw [Nat.testBit_or, show kIsOnHeap = 2 ^ 24 from rfl, Nat.testBit_two_pow]
    by_cases hj : 24 = j
    · subst hj; simp [h.2.2.1]
    · simp [hj]
  simp [TObject.afterRead, ht, h1]

theorem TNamed.Fits.inRange {n : TNamed} (h : n.Fits) : n.InRange := by
  refine ⟨⟨by simpa [InU] using h.1.1, by simpa [InU] using h.1.2.1⟩, h.2.1.2, h.2.2.2, ?_⟩
  have := h.2.1.1; have := h.2.2.1; omega

theorem Emit.namedFits {n : TNamed} {K} (h : n.Fits) :
    Emit true K K (Wr.drop n.marshal) (fun _ => ()) TNamed.unmarshal n := by
  have := Emit.named (K := K) h.inRange
  rwa [h.1.afterRead] at this

theorem Emit.text {ne K} {s : Str} (h : TextOk s) :
    Emit ne K K (Wr.string s) (fun _ => ()) Rd.string s :=
  Emit.string (by have := h.1; omega) h.2

/-- A sequence of numbers whose count is known. -/
theorem Emit.nums {ne K} {put : Int → Wr Unit} {get : Rd Int} {l : List Int} {n : Nat}
    (hn : l.length = n) (h : ∀ i ∈ l, Emit ne K K (put i) (fun _ => ()) get i) :
    Emit ne K K (Wr.each put l) (fun _ => ()) (Rd.times n get) l := by
  subst hn
  have := Emit.each (f := put) (rd := get) (v := id) (l := l) h
  simpa using this

theorem getRangeOk_of {s : Str} (h : TitleOk s) : getRangeOk s = true := by
  unfold getRangeOk
  rcases h with h | ⟨t, rfl, h1, h2⟩
  · rw [if_neg]
    simpa using h
  · simp only [List.contains_cons, beq_self_eq_true, Bool.true_or, if_true]
    simp [h1, mt (List.mem_of_mem_take (i := t.length - 1 - t.reverse.idxOf 93)) h2]

theorem StreamerElement.emit {e : StreamerElement} (h : e.Storable) {K} :
    Emit true K K e.marshal _root_.id StreamerElement.unmarshal e.expected := by
  unfold StreamerElement.marshal StreamerElement.unmarshal
  refine Emit.lenMinusOne (Emit.framed (by decide) fun hd hv => ?_)
  have hv4 : hd.vers = 4 := hv
  have hst : (if e.etype = .named .tNamed then 0 else if e.etype = .named .tObject then 0
      else e.etype.toI32) = e.etype.stored.toI32 := by
    unfold EnumT.stored
    split
    · rename_i h; rw [if_pos (.inl h)]; decide
    · rename_i h1; split
      · rename_i h; rw [if_pos (.inr h)]; decide
      · rename_i h2; rw [if_neg (by rintro (h | h) <;> contradiction)]
  have hfit : InI 4 e.etype.stored.toI32 := by
    unfold EnumT.stored; split
    · decide
    · exact h.etypeFits
  have hty : EnumT.fromI32 e.etype.stored.toI32 = e.etype.stored := by
    unfold EnumT.stored; split
    · decide
    · exact h.etype
  rw [hst, if_neg (by rw [hv4]; decide)]
  refine Emit.bind (c := ()) (Emit.namedFits h.named) ?_ fun _ => rfl
  refine Emit.bind (c := ()) (Emit.i32 hfit) ?_ fun _ => rfl
  refine Emit.bind (c := ()) (Emit.i32 h.esize) ?_ fun _ => rfl
  refine Emit.bind (c := ()) (Emit.i32 h.arrLen) ?_ fun _ => rfl
  refine Emit.bind (c := ()) (Emit.i32 h.arrDim) ?_ fun _ => rfl
  rw [if_neg (by rw [hv4]; decide)]
  refine Emit.bind (c := ()) (Emit.nums h.five fun i hi => Emit.i32 (h.maxIdx i hi)) ?_ fun _ => rfl
  refine Emit.thenPure (Emit.text h.ename) ?_
  have hb : ¬ (e.etype.stored = .named .uChar ∧ (e.ename = b! "Bool_t" ∨ e.ename = b! "bool")) := by
    rintro ⟨h1, h2⟩
    have h1 : e.etype = .named .uChar := by
      unfold EnumT.stored at h1; split at h1
      · cases h1
      · exact h1
    have := h.notBool h1
    rcases h2 with h2 | h2
    · exact this.1 h2
    · exact this.2 h2
  simp only [hty, if_neg hb, if_neg (show ¬ hd.vers < 3 by rw [hv4]; decide),
    if_neg (show ¬ hd.vers = 3 by rw [hv4]; decide), if_pos (getRangeOk_of h.noRange)]
  obtain ⟨named, etype, esize, arrLen, arrDim, maxIdx, ename, xmin, xmax, factor, id⟩ := e
  obtain rfl : xmin = 0 := h.xmin
  obtain rfl : xmax = 0 := h.xmax
  obtain rfl : factor = 0 := h.factor
  rfl

/-- What the reader of the class of an element does. -/
def Streamer.rd : Streamer → Rd Streamer
  | .string _ => Streamer.unmarshalPlain .string
  | .stlString .. => Streamer.unmarshalStlString
  | .basicType _ => Streamer.unmarshalBasicType
  | .basicPointer .. => Streamer.unmarshalBasicPointer
  | .objectAny _ => Streamer.unmarshalPlain .objectAny
  | .stl .. => do let s ← Streamer.unmarshalStl; pure (.stl s.1 s.2.1 s.2.2)
  | .base .. => Streamer.unmarshalBase
  | .object _ => Streamer.unmarshalPlain .object
  | .objectPointer _ => Streamer.unmarshalPlain .objectPointer

theorem Streamer.emitPlain {e : StreamerElement} (h : e.Storable) {K}
    (mk : StreamerElement → Streamer) :
    Emit true K K (do Wr.lenMinusOne; Wr.framed rversStreamer2 (do Wr.drop e.marshal)) id
      (Streamer.unmarshalPlain mk) (mk e.expected) := by
  unfold Streamer.unmarshalPlain
  refine Emit.lenMinusOne (Emit.framed (by decide) fun hd hv => ?_)
  rw [Rd.ensureMax_eq (by rw [hv]; decide), Rd.pure_bind]
  exact Emit.last (StreamerElement.emit h).drop

theorem ESTLType.fromI32_code (t : ESTLType) : ESTLType.fromI32 t.code = some t := by
  cases t <;> decide

theorem ESTLType.code_inI (t : ESTLType) : InI 4 t.code := by cases t <;> decide

theorem EnumNamed.fromI32_code (t : EnumNamed) : EnumNamed.fromI32 t.code = some t := by
  cases t <;> decide +kernel

theorem basicTypeSize_eq (t : EnumNamed) : t.basicSize = basicTypeSize t := by
  cases t <;> rfl

theorem basicTypeSize_bounds {t : EnumNamed} {n : Int} (h : basicTypeSize t = some n) :
    0 < n ∧ n ≤ 8 := by
  cases t <;> simp [basicTypeSize] at h <;> omega

theorem Streamer.emit {s : Streamer} (h : s.Storable) {K} :
    Emit true K K s.marshal id s.rd s.expected := by
  cases s with
  | stlString => exact absurd h id
  | string e => exact Streamer.emitPlain h _
  | objectAny e => exact Streamer.emitPlain h _
  | object e => exact Streamer.emitPlain h _
  | objectPointer e => exact Streamer.emitPlain h _
  | base e vbase =>
    unfold Streamer.marshal Streamer.rd Streamer.unmarshalBase
    refine Emit.lenMinusOne (Emit.framed (by decide) fun hd hv => ?_)
    have h2 : 2 < hd.vers := by rw [hv]; decide
    rw [Rd.ensureMax_eq (by rw [hv]; decide), Rd.pure_bind]
    refine Emit.bind (c := ()) (StreamerElement.emit h.1).drop ?_ fun _ => rfl
    simp only [h2, if_true]
    exact Emit.last (Emit.i32 h.2)
  | basicPointer e cvers cname ccls =>
    unfold Streamer.marshal Streamer.rd Streamer.unmarshalBasicPointer
    refine Emit.lenMinusOne (Emit.framed (by decide) fun hd hv => ?_)
    rw [Rd.ensureMax_eq (by rw [hv]; decide), Rd.pure_bind]
    refine Emit.bind (c := ()) (StreamerElement.emit h.1).drop ?_ fun _ => rfl
    refine Emit.bind (c := ()) (Emit.i32 h.2.1) ?_ fun _ => rfl
    refine Emit.bind (c := ()) (Emit.text h.2.2.1) ?_ fun _ => rfl
    exact Emit.last (Emit.text h.2.2.2)
  | stl e vtype ctype =>
    unfold Streamer.marshal Streamer.rd Streamer.unmarshalStl
    simp only [Rd.bind_assoc]
    refine Emit.lenMinusOne (Emit.framed (by decide) fun hd hv => ?_)
    rw [Rd.ensureMax_eq (by rw [hv]; decide), Rd.pure_bind]
    refine Emit.bind (c := ()) (StreamerElement.emit h.1).drop ?_ fun _ => rfl
    refine Emit.bind (c := ()) (Emit.i32 (ESTLType.code_inI _)) ?_ fun _ => rfl
    rw [ESTLType.fromI32_code]
    simp only [Rd.bind_assoc]
    refine Emit.thenPure (Emit.i32 h.2.2.1) ?_
    have hc : vtype.corrected e.expected.named.name = vtype := by
      by_cases hm : vtype = .multimap ∨ vtype = .set
      · exact h.2.2.2 hm
      · unfold ESTLType.corrected; rw [if_neg hm]
    rw [h.2.1, Rd.pure_bind]
    simp only [hc]
    rfl
  | basicType e =>
    obtain ⟨he, ht, hsz⟩ := h
    obtain ⟨t, ht⟩ := Option.isSome_iff_exists.1 ht
    unfold Streamer.marshal Streamer.rd Streamer.unmarshalBasicType
    refine Emit.lenMinusOne (Emit.framed (by decide) fun hd hv => ?_)
    rw [Rd.ensureMax_eq (by rw [hv]; decide), Rd.pure_bind]
    refine Emit.thenPure (StreamerElement.emit he).drop ?_
    have hk : EnumNamed.fromI32 (if 20 < e.expected.etype.toI32 ∧ e.expected.etype.toI32 < 40
        then e.expected.etype.toI32 - 20 else e.expected.etype.toI32) = some t := ht
    simp only [hk, basicTypeSize_eq]
    show _ = (pure (Streamer.basicType { e.expected with esize := e.basicSize }) : Rd Streamer)
    unfold StreamerElement.basicSize at *
    simp only [ht, Option.bind_some] at hsz ⊢
    cases hb : basicTypeSize t with
    | none => rfl
    | some n =>
      rw [hb] at hsz
      simp only [] at hsz ⊢
      have ha : e.expected.arrLen = e.arrLen := rfl
      rw [ha]
      by_cases hl : 0 < e.arrLen
      · rw [if_pos hl] at hsz
        rw [if_pos hl, if_pos hl, if_pos]
        have := hsz.2; omega
      · rw [if_neg hl, if_neg hl]

theorem Streamer.cls_ok (s : Streamer) : ClassNameOk s.cls := by
  cases s <;> (simp only [Streamer.cls]; decide)

theorem Streamer.unmarshalOf_cls (s : Streamer) (any : Rd (Option Obj)) :
    unmarshalOf any s.cls = some (do let x ← s.rd; pure (Obj.elem x)) := by
  cases s with
  | stl e v c =>
    show some _ = some _
    congr 1
    simp only [Streamer.rd, Rd.bind_assoc]
    rfl
  | _ => rfl

/-- An element written by class tag. -/
theorem Streamer.emitAny {s : Streamer} (h : s.Storable) (fuel : Nat) :
    EmitS true [s.element.id]
      (Wr.objectAny { cls := s.cls, addr := s.element.id, marshal := s.marshal }) _root_.id
      (readAny (fuel + 1)) (some (.elem s.expected)) := by
  refine EmitS.objectAny (S := []) (ret := _root_.id)
    (o := { cls := s.cls, addr := s.element.id, marshal := s.marshal }) (rd := do let x ← s.rd; pure (Obj.elem x)) ?_
    (by simp) ?_ s.cls_ok
  · intro K _
    exact Emit.congrK (Emit.last (Streamer.emit h)) (fun _ => Iff.rfl) (by simp)
  · exact s.unmarshalOf_cls _

theorem mapList_toStreamer (l : List Streamer) :
    Rd.mapList Obj.toStreamer (l.map Obj.elem) = pure l := by
  induction l with
  | nil => rfl
  | cons a l ih =>
    simp only [List.map_cons, Rd.mapList, ih]
    rfl

/-- The numbers that identify a class record and its elements in the writing process. -/
def StreamerInfo.ids (s : StreamerInfo) : List Nat := s.id :: s.elems.map fun e => e.element.id

theorem TObject.default_afterRead : TObject.default.afterRead = TObject.default := by decide

theorem StreamerInfo.emitElems {s : StreamerInfo} (h : s.Storable) (fuel : Nat) :
    EmitS true s.ids (Wr.objectAny s.elemsObj) _root_.id (readAny (fuel + 2))
      (some (.objArray TObject.default (some []) 0 ((s.expected.elems).map Obj.elem))) := by
  have hnd := List.nodup_cons.1 h.distinct
  refine EmitS.objectAny (S := s.elems.map fun e => e.element.id) (ret := _root_.id) (o := s.elemsObj)
    (rd := do let a ← TObjArray.unmarshal (readAny (fuel + 1))
              pure (Obj.objArray a.1 a.2.1 a.2.2.1 a.2.2.2)) ?_ hnd.1 rfl ?_
  · intro K hK
    refine Emit.lenMinusOne (Emit.thenPure
      (v := (TObject.default, some [], 0, s.expected.elems.map Obj.elem)) ?_ rfl)
    have hobj := EmitS.objects (any := readAny (fuel + 1)) (l := s.elems)
      (f := fun e => { cls := e.cls, addr := e.element.id, marshal := e.marshal })
      (S := fun e => [e.element.id]) (val := fun e => some (.elem e.expected))
      (fun e he => Streamer.emitAny (h.elems e he) fuel) (by
        have h2 := hnd.2
        rw [List.nodup_iff_pairwise_ne, List.pairwise_map] at h2
        exact h2.imp fun h a ha hb => h (by simp at ha hb; rw [← ha, hb]))
    have hS : s.elems.flatMap (fun e => [e.element.id]) = s.elems.map fun e => e.element.id := by
      induction s.elems with
      | nil => rfl
      | cons a l ih => simp [List.flatMap_cons, ih]
    rw [hS] at hobj
    have := Emit.plainArray (ne := true) (hobj K hK) (by simpa using h.few)
    have hv : (s.elems.map fun e => some (Obj.elem e.expected)).filterMap _root_.id =
        s.expected.elems.map Obj.elem := by
      simp [List.filterMap_map, Function.comp_def, StreamerInfo.expected]
    rw [hv, TObject.default_afterRead] at this
    exact this
  · exact (by decide : ClassNameOk (b! "TObjArray"))

theorem StreamerInfo.emit {s : StreamerInfo} (h : s.Storable) (fuel : Nat) :
    EmitS true s.ids s.marshal _root_.id (StreamerInfo.unmarshal (readAny (fuel + 2))) s.expected := by
  intro K hK
  unfold StreamerInfo.marshal StreamerInfo.unmarshal
  refine Emit.lenMinusOne (Emit.framed (by decide) fun hd hv => ?_)
  rw [if_neg (by rw [hv]; decide)]
  refine Emit.bind (c := ()) (Emit.namedFits h.named) ?_ fun _ => rfl
  refine Emit.bind (c := ()) (Emit.u32 h.chksum) ?_ fun _ => rfl
  refine Emit.bind (c := ()) (Emit.i32 h.clsver) ?_ fun _ => rfl
  refine Emit.thenPure (StreamerInfo.emitElems h fuel K hK).drop ?_
  simp only [mapList_toStreamer]
  rfl

/-- A class record written by class tag at some other address. -/
theorem StreamerInfo.emitAny {s : StreamerInfo} (h : s.Storable) (fuel addr : Nat)
    (ha : addr ∉ s.ids) :
    EmitS true (addr :: s.ids)
      (Wr.objectAny { cls := b! "TStreamerInfo", addr := addr, marshal := s.marshal }) _root_.id
      (readAny (fuel + 3)) (some (.sinfo s.expected)) := by
  refine EmitS.objectAny (S := s.ids) (ret := _root_.id)
    (o := { cls := b! "TStreamerInfo", addr := addr, marshal := s.marshal })
    (rd := do let s ← StreamerInfo.unmarshal (readAny (fuel + 2)); pure (Obj.sinfo s)) ?_ ha rfl
    (by decide : ClassNameOk (b! "TStreamerInfo"))
  exact (StreamerInfo.emit h fuel).thenPure rfl

end Verif
