import Verif.Spec.RootFiles
import Verif.Lemmas.RootTrees
import Verif.Lemmas.Infos
import Verif.Lemmas.Opened
import Verif.Props.UserInfo
import Verif.Props.Storage
/-
Reading the parts of a file that ROOT wrote.
-/
namespace Verif

/-! ### Classes -/

theorem EnumT.toI32_fromI32 (i : Int) : (EnumT.fromI32 i).toI32 = i := by
  unfold EnumT.fromI32
  cases h : EnumNamed.fromI32 i with
  | none => rfl
  | some e =>
    unfold EnumNamed.fromI32 at h
    obtain ⟨p, hp, rfl⟩ := Option.map_eq_some_iff.1 h
    have h1 : p.2 = i := by simpa using List.find?_some hp
    have h2 : ∀ p ∈ EnumNamed.table, p.1.code = p.2 := by decide +kernel
    rw [← h1]
    exact h2 p (List.mem_of_find?_eq_some hp)

theorem EnumT.fromI32_uChar (i : Int) : EnumT.fromI32 i = .named .uChar ↔ i = 11 := by
  constructor
  · intro h
    have := EnumT.toI32_fromI32 i
    rw [h] at this
    rw [← this]; decide
  · rintro rfl; decide

def RootMember.element (m : RootMember) : StreamerElement :=
  { named := m.named, etype := m.type, esize := m.size, arrLen := m.arrLen, arrDim := m.arrDim,
    maxIdx := m.maxIdx, ename := m.typeName }

theorem RootMember.emitBase {m : RootMember} (h : m.Fits) (ht : TitleOk m.named.title) {K} :
    Emit true K K m.base (fun _ => ()) StreamerElement.unmarshal m.element := by
  unfold RootMember.base StreamerElement.unmarshal
  refine Emit.drop (ret := id) (Emit.framed (by decide) fun hd hv => ?_)
  have hv4 : hd.vers = 4 := hv
  rw [if_neg (by rw [hv4]; decide)]
  refine Emit.bind (c := ()) (Emit.namedFits h.named) ?_ fun _ => rfl
  refine Emit.bind (c := ()) (Emit.i32 h.code) ?_ fun _ => rfl
  refine Emit.bind (c := ()) (Emit.i32 h.size) ?_ fun _ => rfl
  refine Emit.bind (c := ()) (Emit.i32 h.arrLen) ?_ fun _ => rfl
  refine Emit.bind (c := ()) (Emit.i32 h.arrDim) ?_ fun _ => rfl
  rw [if_neg (by rw [hv4]; decide)]
  refine Emit.bind (c := ()) (Emit.nums h.five fun i hi => Emit.i32 (h.maxIdx i hi)) ?_ fun _ => rfl
  refine Emit.thenPure (Emit.text h.typeName) ?_
  simp only [EnumT.fromI32_uChar, if_neg (show ¬ hd.vers < 3 by rw [hv4]; decide),
    if_neg (show ¬ hd.vers = 3 by rw [hv4]; decide), if_pos (getRangeOk_of ht)]
  rfl

/-- What the reader of its class does. -/
def RootMember.rd (m : RootMember) : Rd Streamer := m.seen.rd

theorem RootMember.element_toI32 (m : RootMember) (h : ¬ (m.code = 11 ∧ (m.typeName = b! "Bool_t" ∨ m.typeName = b! "bool"))) :
    m.element.etype.toI32 = m.code := by
  show m.type.toI32 = _
  unfold RootMember.type
  rw [if_neg h, EnumT.toI32_fromI32]

theorem RootMember.emitContainer {m : RootMember} (h : m.Ok) {c : ESTLType} {content : Int} (hc : containerOk m c content)
    {ne K} : Emit ne K K (m.container c content) id Streamer.unmarshalStl (m.element, c, EnumT.fromI32 content) := by
  unfold RootMember.container Streamer.unmarshalStl
  refine Emit.framed (by decide) fun hd hv => ?_
  rw [Rd.ensureMax_eq (by rw [hv]; decide), Rd.pure_bind]
  refine Emit.bind (c := ()) (RootMember.emitBase h.toFits h.title) ?_ fun _ => rfl
  refine Emit.bind (c := ()) (Emit.i32 (ESTLType.code_inI _)) ?_ fun _ => rfl
  rw [ESTLType.fromI32_code]
  refine Emit.thenPure (Emit.i32 hc.1) ?_
  have hc : c.corrected m.element.named.name = c := by
    by_cases hm : c = .multimap ∨ c = .set
    · exact hc.2 hm
    · unfold ESTLType.corrected; rw [if_neg hm]
  simp only [hc]

theorem RootMember.emit {m : RootMember} (h : m.Ok) {K} : Emit true K K m.obj.marshal id m.rd m.seen := by
  have hb := RootMember.emitBase h.toFits h.title (K := K)
  have hk := h.kind
  unfold RootMember.obj RootMember.rd RootMember.seen
  cases hm : m.kind with
  | string | object | objectPointer | objectAny =>
    simp only
    refine Emit.framed (by decide) fun hd hv => ?_
    rw [Rd.ensureMax_eq (by rw [hv]; decide), Rd.pure_bind]
    exact Emit.last hb
  | objectAnyPointer => rw [hm] at hk; exact hk.elim
  | base v =>
    rw [hm] at hk
    simp only
    unfold Streamer.rd Streamer.unmarshalBase
    refine Emit.framed (by decide) fun hd hv => ?_
    have h2 : 2 < hd.vers := by rw [hv]; decide
    rw [Rd.ensureMax_eq (by rw [hv]; decide), Rd.pure_bind]
    refine Emit.bind (c := ()) hb ?_ fun _ => rfl
    simp only [h2, if_true]
    exact Emit.last (Emit.i32 hk)
  | basicPointer v counter cls =>
    rw [hm] at hk
    simp only
    unfold Streamer.rd Streamer.unmarshalBasicPointer
    refine Emit.framed (by decide) fun hd hv => ?_
    rw [Rd.ensureMax_eq (by rw [hv]; decide), Rd.pure_bind]
    refine Emit.bind (c := ()) hb ?_ fun _ => rfl
    refine Emit.bind (c := ()) (Emit.i32 hk.1) ?_ fun _ => rfl
    refine Emit.bind (c := ()) (Emit.text hk.2.1) ?_ fun _ => rfl
    exact Emit.last (Emit.text hk.2.2)
  | stl c content =>
    rw [hm] at hk
    exact Emit.last (f := fun s : StreamerElement × ESTLType × EnumT => Streamer.stl s.1 s.2.1 s.2.2)
      (RootMember.emitContainer h hk)
  | stlString c content =>
    rw [hm] at hk
    simp only
    unfold Streamer.rd Streamer.unmarshalStlString
    refine Emit.framed (by decide) fun hd hv => ?_
    rw [Rd.ensureMax_eq (by rw [hv]; decide), Rd.pure_bind]
    exact Emit.last (f := fun s : StreamerElement × ESTLType × EnumT => Streamer.stlString s.1 s.2.1 s.2.2)
      (RootMember.emitContainer h hk).drop
  | basic =>
    rw [hm] at hk
    obtain ⟨ht, hsz⟩ := hk
    obtain ⟨t, ht⟩ := Option.isSome_iff_exists.1 ht
    simp only
    unfold Streamer.rd Streamer.unmarshalBasicType
    refine Emit.framed (by decide) fun hd hv => ?_
    rw [Rd.ensureMax_eq (by rw [hv]; decide), Rd.pure_bind]
    refine Emit.thenPure hb ?_
    obtain ⟨t', ht', hn⟩ : ∃ t', EnumNamed.fromI32 (if 20 < m.element.etype.toI32 ∧ m.element.etype.toI32 < 40
        then m.element.etype.toI32 - 20 else m.element.etype.toI32) = some t' ∧ basicTypeSize t' = basicTypeSize t := by
      by_cases hbool : m.code = 11 ∧ (m.typeName = b! "Bool_t" ∨ m.typeName = b! "bool")
      · have : m.element.etype = .named .bool := if_pos hbool
        rw [hbool.1] at ht
        have ht : EnumNamed.fromI32 11 = some t := ht
        rw [show EnumNamed.fromI32 11 = some .uChar by decide] at ht
        cases ht
        rw [this]
        exact ⟨.bool, by decide, rfl⟩
      · rw [m.element_toI32 hbool]
        exact ⟨t, ht, rfl⟩
    simp only [ht', basicTypeSize_eq, hn]
    unfold RootMember.basicSize at *
    simp only [ht, Option.bind_some] at hsz ⊢
    cases hbt : basicTypeSize t with
    | none => rfl
    | some n =>
      rw [hbt] at hsz
      simp only [] at hsz ⊢
      have ha : m.element.arrLen = m.arrLen := rfl
      rw [ha]
      by_cases hl : 0 < m.arrLen
      · rw [if_pos hl] at hsz
        rw [if_pos hl, if_pos hl, if_pos]
        · rfl
        have := hsz.2; omega
      · rw [if_neg hl, if_neg hl]
        rfl

theorem RootMember.seen_cls {m : RootMember} (h : m.Ok) : m.seen.cls = m.cls := by
  have hk := h.kind
  unfold RootMember.seen RootMember.cls
  cases hm : m.kind <;> first | rfl | (rw [hm] at hk; exact hk.elim)

theorem RootMember.emitAny {m : RootMember} (h : m.Ok) (fuel : Nat) :
    EmitS true [m.addr] (Wr.objectAny m.obj) _root_.id (readAny (fuel + 1)) (some (.elem m.seen)) := by
  refine EmitS.objectAny (S := []) (ret := _root_.id) (o := m.obj) (rd := do let x ← m.rd; pure (Obj.elem x)) ?_
    (by simp) ?_ ?_
  · intro K _
    exact Emit.congrK (Emit.last (RootMember.emit h)) (fun _ => Iff.rfl) (by simp)
  · show unmarshalOf _ m.cls = _
    rw [← RootMember.seen_cls h]
    exact m.seen.unmarshalOf_cls _
  · show ClassNameOk m.cls
    rw [← RootMember.seen_cls h]
    exact m.seen.cls_ok

theorem Nodup.pairwise_singletons {α} {f : α → Nat} {l : List α} (h : (l.map f).Nodup) :
    l.Pairwise fun i j => ∀ a ∈ [f i], a ∉ [f j] := by
  rw [List.nodup_iff_pairwise_ne, List.pairwise_map] at h
  exact h.imp fun h a ha hb => h (by simp at ha hb; rw [← ha, hb])

theorem flatMap_singletons {α β} (f : α → β) (l : List α) : l.flatMap (fun e => [f e]) = l.map f := by
  induction l with
  | nil => rfl
  | cons a l ih => simp [List.flatMap_cons, ih]

theorem RootInfo.emit {s : RootInfo} (h : s.Ok) (hn : s.addrs.Nodup) (fuel : Nat) :
    EmitS true s.addrs (Wr.objectAny s.obj) _root_.id (readAny (fuel + 3)) (some (.sinfo s.seen)) := by
  have hn1 := List.nodup_cons.1 hn
  have hn2 := List.nodup_cons.1 hn1.2
  refine EmitS.objectAny (S := s.arrayAddr :: s.members.map RootMember.addr) (ret := _root_.id) (o := s.obj)
    (rd := do let s ← StreamerInfo.unmarshal (readAny (fuel + 2)); pure (Obj.sinfo s)) ?_ hn1.1 rfl
    (by decide : ClassNameOk (b! "TStreamerInfo"))
  refine EmitS.thenPure (v := s.seen) ?_ rfl
  unfold RootInfo.obj StreamerInfo.unmarshal
  refine EmitS.framed (by decide) fun hd hv => ?_
  rw [if_neg (by rw [hv]; decide)]
  refine EmitS.bind0 (c := ()) (fun K _ => (Emit.namedFits h.named).congrK (fun _ => Iff.rfl) (by simp)) ?_ fun _ => rfl
  refine EmitS.bind0 (c := ()) (fun K _ => (Emit.u32 h.chksum).congrK (fun _ => Iff.rfl) (by simp)) ?_ fun _ => rfl
  refine EmitS.bind0 (c := ()) (fun K _ => (Emit.i32 h.clsver).congrK (fun _ => Iff.rfl) (by simp)) ?_ fun _ => rfl
  refine EmitS.thenPure (v := some (.objArray TObject.default (some []) 0 ((s.members.map RootMember.seen).map Obj.elem)))
    (EmitS.drop (ret := _root_.id) ?_) ?_
  · refine EmitS.objectAny (S := s.members.map RootMember.addr) (ret := _root_.id) (o := s.array)
      (rd := do let a ← TObjArray.unmarshal (readAny (fuel + 1))
                pure (Obj.objArray a.1 a.2.1 a.2.2.1 a.2.2.2)) ?_ hn2.1 rfl (by decide : ClassNameOk (b! "TObjArray"))
    refine EmitS.thenPure (v := (TObject.default, some [], 0, (s.members.map RootMember.seen).map Obj.elem)) ?_ rfl
    intro K hK
    have hobj := EmitS.each (f := fun m : RootMember => Wr.drop (Wr.objectAny m.obj)) (rd := readAny (fuel + 1)) (l := s.members)
      (S := fun e => [e.addr]) (v := fun e => some (.elem e.seen))
      (fun e he => (RootMember.emitAny (h.members e he) fuel).drop) (Nodup.pairwise_singletons hn2.2)
    rw [flatMap_singletons] at hobj
    have hobj := hobj K hK
    have hvals : (s.members.map fun e => some (Obj.elem e.seen)).filterMap _root_.id =
        (s.members.map RootMember.seen).map Obj.elem := by
      simp [List.filterMap_map, Function.comp_def]
    unfold TObjArray.unmarshal
    refine Emit.framed (by decide) fun hd hv => ?_
    have h2 : 2 < hd.vers := by rw [hv]; decide
    have h1 : 1 < hd.vers := by omega
    rw [Rd.ensureMax_eq (by rw [hv]; decide), Rd.pure_bind]
    simp only [h1, h2, if_true]
    have e := Emit.obj (ne := true) (K := K) TObject.default_inRange
    rw [TObject.default_afterRead] at e
    refine Emit.bind (c := ()) e ?_ fun _ => rfl
    refine Emit.bind (c := ()) (Emit.last (Emit.string (s := []) (by decide) utf8_nil)) ?_ fun _ => rfl
    refine Emit.bind (c := ()) (Emit.i32 (InI4_nat h.few)) ?_ fun _ => rfl
    refine Emit.bind (c := ()) (Emit.i32 (v := 0) (by decide)) ?_ fun _ => rfl
    refine Emit.thenPure hobj ?_
    rw [← hvals]
  · simp only [mapList_toStreamer]
    rfl

/-- What is read of the rules. -/
def RootRules.read (l : RootRules) : Obj :=
  .list TObject.default.afterRead (b! "listOfRules") (l.rules.map fun t => Obj.objString TObject.default.afterRead t.s)

theorem RootRules.emit {l : RootRules} (h : ∀ t ∈ l.rules, t.Ok) (hf : l.rules.length < 2 ^ 31) (hn : l.addrs.Nodup) (fuel : Nat) :
    EmitS true l.addrs (Wr.objectAny l.obj) _root_.id (readAny (fuel + 2)) (some l.read) := by
  have hn1 := List.nodup_cons.1 hn
  refine EmitS.objectAny (S := l.rules.map Text.addr) (ret := _root_.id) (o := l.obj) (build := unmarshalOf (readAny (fuel + 1)))
    (rd := do let l ← TList.unmarshal (readAny (fuel + 1)); pure (Obj.list l.1 l.2.1 l.2.2)) ?_ hn1.1 rfl
    (by decide : ClassNameOk (b! "TList"))
  have := EmitS.list (ne := true) (any := readAny (fuel + 1)) (l := l.rules) (f := Text.obj) (S := fun t => [t.addr])
    (val := fun t => Obj.objString TObject.default.afterRead t.s) (obj := TObject.default) (name := some (b! "listOfRules"))
    (fun t ht => Text.emit (h t ht) fuel) (Nodup.pairwise_singletons hn1.2) TObject.default_inRange (by decide) (by decide) hf
  rw [flatMap_singletons] at this
  exact this.thenPure rfl

/-- What is written for an entry of the list of classes, and what is read. -/
def infoEntries (s : RootInfos) : List (RootInfo ⊕ RootRules) := s.infos.map .inl ++ s.rules.toList.map .inr

def entryObj : RootInfo ⊕ RootRules → WObj
  | .inl i => i.obj
  | .inr r => r.obj
def entryAddrs : RootInfo ⊕ RootRules → List Nat
  | .inl i => i.addrs
  | .inr r => r.addrs
def entryRead : RootInfo ⊕ RootRules → Obj
  | .inl i => .sinfo i.seen
  | .inr r => r.read

theorem infoEntries_addrs (s : RootInfos) : (infoEntries s).flatMap entryAddrs = s.addrs := by
  unfold infoEntries RootInfos.addrs
  rw [List.flatMap_append, List.flatMap_map, List.flatMap_map]
  rfl

theorem infoEntries_obj (s : RootInfos) :
    (infoEntries s).map entryObj = s.infos.map RootInfo.obj ++ s.rules.toList.map RootRules.obj := by
  unfold infoEntries
  rw [List.map_append, List.map_map, List.map_map]
  rfl

theorem RootInfos.emit {s : RootInfos} (h : s.Ok) (fuel : Nat) :
    EmitS false s.addrs s.write _root_.id
      (do let l ← TList.unmarshal (readAny (fuel + 3)); pure (Obj.list l.1 l.2.1 l.2.2))
      (Obj.list TObject.default [] ((infoEntries s).map entryRead)) := by
  have hd : ((infoEntries s).flatMap entryAddrs).Nodup := by rw [infoEntries_addrs]; exact h.distinct
  have := EmitS.list (ne := false) (any := readAny (fuel + 3)) (l := infoEntries s) (f := entryObj) (S := entryAddrs)
    (val := entryRead) (obj := TObject.default) (name := some [])
    (fun x hx => by
      have hnd := nodup_of_nodup_flatMap hd hx
      rcases List.mem_append.1 hx with hx | hx
      · obtain ⟨i, hi, rfl⟩ := List.mem_map.1 hx
        exact RootInfo.emit (h.infos i hi) hnd fuel
      · obtain ⟨r, hr, rfl⟩ := List.mem_map.1 hx
        have hr : s.rules = some r := by simpa using hr
        obtain ⟨h1, h2⟩ := h.rules r hr
        exact RootRules.emit h1 h2 hnd (fuel + 1))
    (pairwise_of_nodup_flatMap hd) TObject.default_inRange (by decide) (by decide) (by
      have := h.few
      simp only [infoEntries, List.length_append, List.length_map]
      omega)
  rw [infoEntries_addrs, infoEntries_obj, TObject.default_afterRead] at this
  exact this.thenPure rfl

theorem takeInfos_entries (s : RootInfos) :
    takeInfos ((infoEntries s).map entryRead) = .ok (s.infos.map RootInfo.seen).reverse := by
  unfold infoEntries
  rw [List.map_append, List.map_map, List.map_map]
  have h0 : takeInfos (s.rules.toList.map (entryRead ∘ .inr)) = .ok [] := by
    cases s.rules with
    | none => rfl
    | some r => rfl
  generalize s.rules.toList.map (entryRead ∘ .inr) = rs at h0
  induction s.infos with
  | nil => exact h0
  | cons i l ih =>
    simp only [List.map_cons, List.cons_append, takeInfos, ih, Function.comp_apply, entryRead, takeInfo, List.reverse_cons]
    rfl

/-! ### Records -/

theorem rootText_eq (s : Str) : rootText s = encStr s := rfl

theorem rootKey_eq (k : Key) (date : Nat) : rootKey k date = k.enc date := by
  unfold rootKey Key.enc encSeek
  by_cases h : 1000 < k.rvers <;> simp only [h, if_true, if_false, decide_true, decide_false, Bool.false_eq_true] <;> rfl

theorem bigEndian_seek (big : Bool) (v : Int) : bigEndian (if big then 8 else 4) v = encSeek big v := by
  cases big <;> rfl

section
variable {r : RootRecord} {dec : Decoders} {img : List Byte}

theorem RootRecord.In.read (h : r.In dec img) : ∃ data, readAt img r.key.seekKey r.key.nBytes = .ok data ∧
    readWith Key.unmarshal data = .ok (r.key.afterRead r.date) := by
  refine ⟨r.bytes, readAt_stored h.seekKey h.nBytes h.there, ?_⟩
  unfold RootRecord.bytes
  rw [rootKey_eq]
  exact readWith_reads (Key.reads h.key h.date) rfl

theorem RootRecord.In.load (h : r.In dec img) : (r.key.afterRead r.date).load dec img = .ok r.payload := by
  have h1 := h.seekKey
  have h2 := h.keyLen
  have h3 := h.objLen
  have h4 := h.nBytes
  have h5 : Stored img r.key.seekKey.toNat r.bytes := h.there
  unfold RootRecord.bytes at h4 h5
  have hsane : r.key.Sane := h.key.sane h1 (by omega) (by rw [List.length_append] at h4; omega)
  rw [Key.load_sane (k := r.key.afterRead r.date) ⟨hsane.seek, hsane.seek', hsane.keyLen, hsane.room, hsane.nBytes⟩]
  unfold Key.isCompressed
  show (if decide (r.key.objLen ≠ r.key.nBytes - r.key.keyLen) = true then _ else _) = _
  have e1 : (r.key.afterRead r.date).objLen = r.key.objLen := rfl
  have e2 : (r.key.afterRead r.date).nBytes = r.key.nBytes := rfl
  have e3 : (r.key.afterRead r.date).keyLen = r.key.keyLen := rfl
  have e4 : (r.key.afterRead r.date).seekKey = r.key.seekKey := rfl
  rw [Stored.append] at h5
  have e5 : (r.key.seekKey + r.key.keyLen).toNat = r.key.seekKey.toNat + (rootKey r.key r.date).length := by omega
  cases hb : r.block with
  | none =>
    rw [hb] at h4 h5
    rw [List.length_append] at h4
    simp only at h4
    rw [if_neg (by simp; omega)]
    rw [e1, e3, e4]
    refine readAt_stored (by omega) h3 ?_
    rw [e5]
    exact h5.2
  | some z =>
    rw [hb] at h4 h5
    rw [List.length_append] at h4
    simp only at h4
    obtain ⟨h6, h7, h8⟩ := h.block z hb
    have h9 : Stored img (r.key.seekKey + r.key.keyLen).toNat z.bytes := by rw [e5]; exact h5.2
    rw [if_pos (by simp; omega), e1, e2, e3, e4, if_neg (by omega), readAt_stored (by omega) (by omega) h9]
    have := C34_single_partial h6
    rw [h7] at this
    simp only [h3, Int.toNat_natCast]
    exact this

end

theorem RootSegment.reads {s : RootSegment} (h : InSeek s.big s.first ∧ InSeek s.big s.last) :
    Reads FreeSegments.unmarshal s.bytes { first := s.first, last := s.last } := by
  unfold RootSegment.bytes
  simp only [bigEndian_seek]
  refine Reads.bind (Reads.sint (by decide) (v := if s.big then 1001 else 1) (by split <;> decide)) ?_
  have hb : decide ((1000 : Int) < (if s.big then 1001 else 1)) = s.big := by cases s.big <;> rfl
  rw [hb]
  refine Reads.bind (Reads.seek h.1) ?_
  refine (Reads.bind (b2 := []) (Reads.seek h.2) ?_).congr (List.append_nil _)
  exact Reads.pure _

theorem RootSegment.bytes_length (s : RootSegment) : 10 ≤ s.bytes.length := by
  unfold RootSegment.bytes bigEndian
  simp only [List.length_append, beBytes_length]
  split <;> omega

/-- Segments one after the other, up to the end. -/
theorem readSpans_all : ∀ (l : List RootSegment) (n : Nat) (r : RBuffer), (∀ s ∈ l, InSeek s.big s.first ∧ InSeek s.big s.last) →
    r.skip = none → r.c ≤ r.p.length → r.rest = l.flatMap RootSegment.bytes → l.length ≤ n →
    ∃ r', readSpans n r = .ok (l.map fun s => { first := s.first, last := s.last }, r')
  | [], n, r, _, _, hc, hr, hn => by
    cases n with
    | zero => exact ⟨r, rfl⟩
    | succ n =>
      have : r.p.length ≤ r.c := by
        have := congrArg List.length hr
        simp [RBuffer.rest] at this
        omega
      exact ⟨r, by rw [readSpans_succ, if_pos this]; rfl⟩
  | s :: l, n, r, h, hs, hc, hr, hn => by
    obtain ⟨n, rfl⟩ : ∃ m, n = m + 1 := ⟨n - 1, by simp at hn; omega⟩
    rw [List.flatMap_cons] at hr
    have h1 := RootSegment.reads (h s (by simp)) r hs hc ⟨_, hr.symm⟩
    have hlen := congrArg List.length hr
    simp only [RBuffer.rest, List.length_drop, List.length_append] at hlen
    have h10 := s.bytes_length
    obtain ⟨r', h2⟩ := readSpans_all l n (r.adv s.bytes.length) (fun s hs => h s (by simp [hs])) hs
      (by show r.c + s.bytes.length ≤ r.p.length; omega)
      (by
        show r.p.drop (r.c + s.bytes.length) = _
        rw [← List.drop_drop]
        show r.rest.drop _ = _
        rw [hr, List.drop_left])
      (by simp at hn; omega)
    refine ⟨r', ?_⟩
    rw [readSpans_succ, if_neg (by omega), Rd.bind_ok h1, Rd.bind_ok h2]
    rfl

/-! ### The file -/

section
variable {f : RootFile} {dec : Decoders} {img : List Byte}

theorem RootFile.headerReads (h : f.Ok) : Reads FileHeader.unmarshal f.headerBytes f.header := by
  obtain ⟨v1, v2⟩ := h.version
  unfold RootFile.headerBytes
  simp only [bigEndian_seek]
  have hw : decide (1000000 < (if f.big then f.header.version + 1000000 else f.header.version)) = f.big := by
    cases f.big
    · simp; omega
    · simp; omega
  have hm : (if f.big then f.header.version + 1000000 else f.header.version).tmod 1000000 = f.header.version := by
    rw [Int.tmod_eq_emod_of_nonneg (by split <;> omega)]
    split <;> omega
  have hi : InI 4 (if f.big then f.header.version + 1000000 else f.header.version) := by
    constructor <;> split <;> omega
  refine Reads.bind (Reads.take rootMagic) ?_
  rw [if_neg (by simp)]
  refine Reads.bind (Reads.sint (by decide) hi) ?_
  rw [hw]
  refine Reads.bind (Reads.sint (by decide) h.begin_.2) ?_
  refine Reads.bind (Reads.seek h.end_) ?_
  refine Reads.bind (Reads.seek h.seekFree) ?_
  refine Reads.bind (Reads.sint (by decide) h.nBytesFree) ?_
  refine Reads.bind (Reads.sint (by decide) h.nFree) ?_
  refine Reads.bind (Reads.sint (by decide) h.nameFits) ?_
  refine Reads.bind (Reads.uint (by simpa using h.units)) ?_
  refine Reads.bind (Reads.sint (by decide) h.compression) ?_
  refine Reads.bind (Reads.seek h.seekInfo) ?_
  refine Reads.bind (Reads.sint (by decide) h.nBytesInfo) ?_
  refine Reads.bind (Reads.uint (k := 2) (v := wrapI 2 1) (by decide)) ?_
  refine (Reads.bind (b2 := []) (h.uuid ▸ Reads.take f.header.uuid) ?_).congr (List.append_nil _)
  rw [hm]
  exact Reads.pure _

theorem RootFile.headerLength (h : f.Ok) : f.headerBytes.length ≤ 75 := by
  have := h.uuid
  unfold RootFile.headerBytes bigEndian
  simp only [List.length_append, beBytes_length, this]
  split <;> simp

theorem RootFile.dirBytes_eq (f : RootFile) : f.dirBytes = f.dir.enc f.dir.ctime f.dir.mtime := by
  unfold RootFile.dirBytes Dir.enc
  have : (if 1000 < f.dir.rvers then 8 else 4) = if f.dir.isBig then 8 else 4 := by
    unfold Dir.isBig
    by_cases h : 1000 < f.dir.rvers <;> simp [h]
  rw [this]
  simp only [bigEndian_seek]
  rfl

theorem asU64_nat {x : Int} (h0 : 0 ≤ x) (h : x < 2 ^ 63) : asU64 x = x.toNat := by
  unfold asU64 wrapI
  omega

theorem RootFile.In.openDir (h : f.Ok) (hi : f.In dec img) : readDirInfo img f.header =
    if f.header.nBytesName < 10 ∨ 1000 < f.header.nBytesName then .error (.err .cantReadDirectoryInfo)
    else .ok { f.dir.afterRead f.dir.ctime f.dir.mtime with className := f.top.cls, name := f.top.name, title := f.top.title } := by
  have hb := h.begin_
  have hn := h.nBytesName
  have hnf := h.nameFits
  have hroom := h.room
  have hdr := h.dirRoom
  have hlen := hi.length
  have hend := h.end_
  have hrec : dirRecordSize f.header.version = f.dirRoom := by
    unfold dirRecordSize RootFile.dirRoom
    split <;> rfl
  have hrec2 : 48 ≤ f.dirRoom ∧ f.dirRoom ≤ 60 := by unfold RootFile.dirRoom; split <;> omega
  have hb2 : f.header.begin_ < 2 ^ 31 := by have := hb.2.2; omega
  have hnf2 : f.header.nBytesName < 2 ^ 31 := by have := hnf.2; omega
  have hend2 : f.header.end_ < 2 ^ 63 := by
    have := hend.2
    split at this <;> omega
  have a1 : asU64 f.header.nBytesName = f.header.nBytesName.toNat := asU64_nat (by omega) (by omega)
  have a2 : asU64 (dirRecordSize f.header.version) = f.dirRoom.toNat := by rw [hrec]; exact asU64_nat (by omega) (by omega)
  have a3 : asU64 f.header.begin_ = f.header.begin_.toNat := asU64_nat (by omega) (by omega)
  have a4 : asU64 f.header.end_ = f.header.end_.toNat := asU64_nat (by omega) (by omega)
  have htop := hi.top
  rw [rootKey_eq] at htop hn
  obtain ⟨rest, hr, hl⟩ := readAt_more (pos := f.header.begin_)
    (len := ((f.header.nBytesName.toNat + f.dirRoom.toNat : Nat) : Int)) hb.1
    (by simp only [List.length_append]; omega) (by omega) htop
  generalize hdata : f.top.enc f.topDate ++ (f.names ++ f.dirBytes) ++ rest = data at hr hl
  have r1 : readWith Dir.unmarshal (data.drop f.header.nBytesName.toNat) = .ok (f.dir.afterRead f.dir.ctime f.dir.mtime) := by
    refine readWith_reads (rest := rest) (Dir.reads h.dir h.ctime h.mtime) ?_
    rw [← hdata, RootFile.dirBytes_eq]
    have : f.top.enc f.topDate ++ (f.names ++ f.dir.enc f.dir.ctime f.dir.mtime) ++ rest =
      (f.top.enc f.topDate ++ f.names) ++ (f.dir.enc f.dir.ctime f.dir.mtime ++ rest) := by simp
    rw [this]
    exact drop_append_length _ _ _ (by rw [List.length_append]; omega)
  have r2 : readWith Rd.i16 (data.drop 4) = .ok f.top.rvers := by
    have hx : ∃ z, f.top.enc f.topDate = encI 4 f.top.nBytes ++ (encI 2 f.top.rvers ++ z) := ⟨_, rfl⟩
    obtain ⟨z, hx⟩ := hx
    rw [← hdata, hx]
    refine readWith_reads (rest := z ++ (f.names ++ (f.dirBytes ++ rest)))
      (Reads.sint (k := 2) (v := f.top.rvers) (by decide) h.top.2.2.1) ?_
    have : encI 4 f.top.nBytes ++ (encI 2 f.top.rvers ++ z) ++ (f.names ++ f.dirBytes) ++ rest =
      encI 4 f.top.nBytes ++ (encI 2 f.top.rvers ++ (z ++ (f.names ++ (f.dirBytes ++ rest)))) := by simp
    rw [this]
    exact drop_append_length _ _ 4 (by simp [encI_length])
  have hx : ∃ pre : List Byte, pre.length = (if 1000 < f.top.rvers then 34 else 26) ∧ f.top.enc f.topDate = pre ++
      (encStr f.top.cls ++ (encStr f.top.name ++ encStr f.top.title)) := by
    unfold Key.enc
    refine ⟨encI 4 f.top.nBytes ++ (encI 2 f.top.rvers ++ (encI 4 f.top.objLen ++
      (beBytes 4 f.topDate ++ (encI 2 f.top.keyLen ++ (encI 2 f.top.cycle ++
      (encSeek (1000 < f.top.rvers) f.top.seekKey ++ encSeek (1000 < f.top.rvers) f.top.seekPdir)))))), ?_, ?_⟩
    · simp only [List.length_append, encI_length, beBytes_length, encSeek_length]
      by_cases hv : 1000 < f.top.rvers <;> simp [hv]
    · simp only [List.append_assoc]
  obtain ⟨pre, hpre, hx⟩ := hx
  have r3 : readWith (do
          let c ← Rd.string
          let n ← Rd.string
          let t ← Rd.string
          pure (c, n, t)) (data.drop (if 1000 < f.top.rvers then 34 else 26)) = .ok (f.top.cls, f.top.name, f.top.title) := by
    rw [← hdata, hx]
    obtain ⟨-, -, -, -, -, -, -, -, -, h10, h11, h12⟩ := h.top
    refine readWith_reads (rest := f.names ++ (f.dirBytes ++ rest)) (Reads.names h10 h11 h12) ?_
    have : pre ++ (encStr f.top.cls ++ (encStr f.top.name ++ encStr f.top.title)) ++ (f.names ++ f.dirBytes) ++ rest =
      pre ++ ((encStr f.top.cls ++ (encStr f.top.name ++ encStr f.top.title)) ++ (f.names ++ (f.dirBytes ++ rest))) := by simp
    rw [this]
    exact drop_append_length _ _ _ hpre.symm
  have hle : (if 1000 < f.top.rvers then 34 else 26) ≤ data.length := by
    have := congrArg List.length hx
    rw [List.length_append] at this
    omega
  unfold readDirInfo
  simp only [a1, a2, a3, a4]
  rw [if_neg (by omega), if_neg (by omega), hr]
  show (readWith Dir.unmarshal _ >>= _) = _
  rw [Res.bind_ok r1, Res.bind_ok r2]
  rw [if_neg (by omega), Res.bind_ok r3]
  have e : (f.dir.afterRead f.dir.ctime f.dir.mtime).nBytesName = f.header.nBytesName := h.sameName
  simp only [e]

theorem RootFile.In.openFree (h : f.Ok) (hi : f.In dec img) :
    readFreeSegments dec img f.header = .ok (f.segments.map fun s => { first := s.first, last := s.last }) := by
  obtain ⟨data, r1, r2⟩ := hi.free.read
  have r3 := hi.free.load
  unfold readFreeSegments
  rw [h.freeAt.1, h.freeBytes, Res.bind_ok r1, Res.bind_ok r2, Res.bind_ok r3]
  have hlen : ∀ l : List RootSegment, l.length ≤ (l.flatMap RootSegment.bytes).length := by
    intro l
    induction l with
    | nil => simp
    | cons s l ih =>
      have := s.bytes_length
      rw [List.flatMap_cons, List.length_append, List.length_cons]
      omega
  obtain ⟨r', q⟩ := readSpans_all f.segments f.free.payload.length (RBuffer.fresh f.free.payload 0) h.segmentsFit rfl
    (Nat.zero_le _) (by rw [← h.segments]; simp [RBuffer.rest]) (by rw [h.segments]; exact hlen _)
  unfold readWith
  have q' : readSpans f.free.payload.length { p := f.free.payload, c := 0, offset := 0, refs := [], skip := none } = _ := q
  rw [q']

theorem RootFile.In.openKeys (h : f.Ok) (hi : f.In dec img) (d : Dir) (h1 : d.seekKeys = f.dir.seekKeys)
    (h2 : d.nBytesKeys = f.dir.nBytesKeys) : readKeys img d = .ok (f.keys.map seenKey) := by
  obtain ⟨data, r1, r2⟩ := hi.keyList.read
  have r3 := hi.keyList.load
  have hpos := h.seekKeys
  have hp := h.listPlain
  have hnb := hi.keyList.nBytes
  have hob := hi.keyList.objLen
  have hkl := hi.keyList.keyLen
  unfold RootRecord.bytes at hnb
  rw [hp, List.length_append] at hnb
  simp only at hnb
  have hsane : f.keyList.key.Sane := hi.keyList.key.sane hi.keyList.seekKey (by omega) (by omega)
  have hload : readAt img (f.keyList.key.seekKey + f.keyList.key.keyLen) f.keyList.key.objLen = .ok f.keyList.payload := by
    rw [Key.load_sane (k := f.keyList.key.afterRead f.keyList.date)
      ⟨hsane.seek, hsane.seek', hsane.keyLen, hsane.room, hsane.nBytes⟩] at r3
    unfold Key.isCompressed at r3
    rw [if_neg] at r3
    · exact r3
    · show ¬ decide (f.keyList.key.objLen ≠ f.keyList.key.nBytes - f.keyList.key.keyLen) = true
      simp
      omega
  unfold readKeys
  rw [h1, h2, if_neg (by omega), hpos.1, h.nBytesKeys, Res.bind_ok r1, Res.bind_ok r2]
  show (sumU64 f.keyList.key.seekKey f.keyList.key.keyLen >>= _) = _
  rw [Res.bind_ok (sumU64_of hsane.seek hsane.seek' hsane.keyLen (by have := hsane.room; have := hsane.nBytes; omega))]
  show (readAt img (f.keyList.key.seekKey + f.keyList.key.keyLen) f.keyList.key.objLen >>= _) = _
  rw [Res.bind_ok hload]
  refine readWith_reads (rest := []) ?_ (List.append_nil _).symm
  rw [h.listed]
  refine Reads.bind (Reads.sint (by decide) (InI4_nat h.few)) ?_
  rw [Int.toNat_natCast]
  refine Reads.timesMap fun k hk => ?_
  obtain ⟨hk1, hk2⟩ := h.keys k hk
  rw [rootKey_eq]
  unfold readKeyEntry
  refine (Reads.bind (b2 := []) (Key.reads hk1 hk2) ?_).congr (List.append_nil _)
  have e : (if (k.1.afterRead k.2).cls = b! "TDirectory" then { k.1.afterRead k.2 with cls := b! "TDirectoryFile" }
      else k.1.afterRead k.2) = seenKey k := by
    unfold seenKey
    show (if k.1.cls = b! "TDirectory" then _ else _) = _
    split <;> rfl
  rw [e]
  exact Reads.pure _

theorem RootFile.In.openInfos (h : f.Ok) (hs : f.infos.Ok) (hi : f.In dec img) (fuel : Nat) :
    readStreamerInfo dec (fuel + 3) img f.header = .ok (f.infos.infos.map RootInfo.seen).reverse := by
  obtain ⟨data, r1, r2⟩ := hi.info.read
  have r3 := hi.info.load
  obtain ⟨p1, p2, p3⟩ := h.infoAt
  unfold readStreamerInfo
  rw [if_neg (by omega), p1, h.infoBytes, Res.bind_ok r1, Res.bind_ok r2]
  have hobj : Key.object dec (fuel + 3) img (f.info.key.afterRead f.info.date) =
      .ok (Obj.list TObject.default [] ((infoEntries f.infos).map entryRead)) := by
    unfold Key.object
    rw [Res.bind_ok r3]
    have hf : factory (fuel + 3) (f.info.key.afterRead f.info.date).cls = some (do
          let l ← TList.unmarshal (readAny (fuel + 3))
          pure (Obj.list l.1 l.2.1 l.2.2)) := by
      show unmarshalOf _ f.info.key.cls = _
      rw [h.infoClass]
      rfl
    simp only [hf]
    obtain ⟨bs, w', w1, w2, -, w3⟩ := (RootInfos.emit hs fuel).roundTripAt (off := f.info.key.keyLen.toNat) (pre := [])
      (by intro h; cases h)
    obtain ⟨n, w, m1, m2⟩ := h.infos
    have eq : WBuffer.holding f.info.key.keyLen.toNat [] = WBuffer.new f.info.key.keyLen.toNat := rfl
    rw [eq, m1] at w1
    cases w1
    rw [List.nil_append] at w2
    have hbs : bs = f.info.payload := by rw [← w2, m2]
    have hfit := h.infosFit
    obtain ⟨r', q, -⟩ := w3 (by rw [List.nil_append, hbs]; omega) []
    rw [List.append_nil, List.nil_append] at q
    rw [← hbs]
    exact readWith_of q
  rw [Res.bind_ok hobj]
  exact takeInfos_entries _

end

end Verif
