import Verif.Model.Objects
import Verif.Spec.Version
import Verif.Lemmas.Values
namespace Verif

/-! ### Versions -/

theorem testBit30 (c0 c1 c2 c3 : Byte) :
    (beNat [c0, c1, c2, c3] &&& kByteCountMask ≠ 0) = (c0.toNat.testBit 6 = true) := by
  have hb : beNat [c0, c1, c2, c3] = c0.toNat * 2 ^ 24 + (beNat [c1, c2, c3]) := by
    simp [beNat]; omega
  have hl : beNat [c1, c2, c3] < 2 ^ 24 := by
    have := beNat_lt [c1, c2, c3]
    simpa using this
  have ht : (beNat [c0, c1, c2, c3]).testBit 30 = c0.toNat.testBit 6 := by
    rw [hb, Nat.mul_comm, Nat.testBit_two_pow_mul_add _ hl]
    simp
  rw [← ht]
  have hm : kByteCountMask = 2 ^ 30 := rfl
  rw [hm]
  exact propext (and_two_pow_ne_zero _ _)

theorem header_of_hasVersion {r : RBuffer} {v : Int} (hc : r.c ≤ r.p.length)
    (h : HasVersion r.rest v) : ∃ hd r', Rd.header r = .ok (hd, r') ∧ hd.vers = v := by
  generalize hrest : r.rest = bs at h
  have hlen : bs.length = r.p.length - r.c := by rw [← hrest]; simp [RBuffer.rest]
  cases h with
  | counted c0 c1 c2 c3 v0 v1 body hb =>
    simp only [List.length_cons] at hlen
    have h1 : Rd.u32 r = .ok (beNat [c0, c1, c2, c3], r.adv 4) :=
      Rd.uint_ok rfl hc (by rw [hrest]; exact ⟨v0 :: v1 :: body, rfl⟩)
    have h2 : Rd.u16 (r.adv 4) = .ok (beNat [v0, v1], r.adv 6) := by
      have := Rd.uint_ok (r := r.adv 4) (bs := [v0, v1]) rfl (by simp; omega)
        (by rw [RBuffer.adv_rest, hrest]; exact ⟨body, rfl⟩)
      simpa [Rd.u16] using this
    unfold Rd.header
    rw [Rd.bind_ok (a := r.c + r.offset) (r' := r) rfl, Rd.bind_ok h1]
    rw [if_pos (by rw [testBit30]; exact hb), Rd.bind_ok h2, Rd.pure_eq]
    refine ⟨_, _, rfl, ?_⟩
    simp [beNat]
  | bare v0 v1 b0 b1 body hb =>
    simp only [List.length_cons] at hlen
    have h1 : Rd.u32 r = .ok (beNat [v0, v1, b0, b1], r.adv 4) :=
      Rd.uint_ok rfl hc (by rw [hrest]; exact ⟨body, rfl⟩)
    have h2 : Rd.u16 r = .ok (beNat [v0, v1], r.adv 2) :=
      Rd.uint_ok rfl hc (by rw [hrest]; exact ⟨b0 :: b1 :: body, rfl⟩)
    have h3 : Rd.setPos ((r.c + r.offset : Nat) : Int) (r.adv 4) = .ok ((), r) := by
      have he : (((r.c + r.offset : Nat) : Int) - ((r.adv 4).offset : Nat)) = (r.c : Int) := by
        simp
      unfold Rd.setPos
      rw [he, if_pos (by omega)]
      simp [RBuffer.adv]
    unfold Rd.header
    rw [Rd.bind_ok (a := r.c + r.offset) (r' := r) rfl, Rd.bind_ok h1]
    rw [if_neg (by rw [testBit30]; simp [hb]), Rd.bind_ok h3, Rd.bind_ok h2, Rd.pure_eq]
    refine ⟨_, _, rfl, ?_⟩
    simp [beNat]

/-- A reader that starts with a header and a maximum check refuses newer versions. -/
theorem refuses_newer {α} {max : Int} {f : Rd.RHeader → Rd α} {r : RBuffer} {v : Int}
    (hc : r.c ≤ r.p.length) (h : HasVersion r.rest v) (hv : max < v) :
    (do let h ← Rd.header; Rd.ensureMax h.vers max; f h) r = .error (.err .versionTooHigh) := by
  obtain ⟨hd, r', h1, h2⟩ := header_of_hasVersion hc h
  rw [Rd.bind_ok h1]
  apply Rd.bind_err
  simp [Rd.ensureMax, h2, hv, Rd.fail]

/-- The same when the check is written as a condition. -/
theorem refuses_newer_if {α} {max : Int} {f : Rd.RHeader → Rd α} {r : RBuffer} {v : Int}
    (hc : r.c ≤ r.p.length) (h : HasVersion r.rest v) (hv : max < v) :
    (do let h ← Rd.header; if max < h.vers then Rd.fail .versionTooHigh else f h) r =
      .error (.err .versionTooHigh) := by
  obtain ⟨hd, r', h1, h2⟩ := header_of_hasVersion hc h
  rw [Rd.bind_ok h1, if_pos (by rw [h2]; exact hv)]
  rfl

/-! ### Framed records -/

/-- Reading a record that starts with a header whose version is checked. -/
theorem Reads.framedMax {α} {vers max : Int} {body : Rd α} {bs : List Byte} {a : α}
    (hb : bs.length + 2 < 2 ^ 30) (hv : InI 2 vers) (hm : vers ≤ max)
    (hr : Reads body bs a) :
    Reads (do let h ← Rd.header; Rd.ensureMax h.vers max; body) (hdrBytes bs.length vers ++ bs) a := by
  intro r hs hc hp
  have hp1 := RBuffer.prefix_left hp
  rw [Rd.bind_ok (Reads.hdr hb hv r hs hc hp1)]
  have : Rd.ensureMax vers max (r.adv 6) = .ok ((), r.adv 6) := by
    unfold Rd.ensureMax; rw [if_neg (by omega)]; rfl
  simp only
  rw [Rd.bind_ok this]
  have h6 : (hdrBytes bs.length vers).length = 6 := hdrBytes_length _ _
  have := hr (r.adv 6) hs (by have := RBuffer.adv_le hc hp1; rwa [h6] at this)
    (by have := RBuffer.prefix_adv hp; rwa [h6] at this)
  rw [this]
  simp

/-- Reading a record whose header's version is handed to the body. -/
theorem Reads.framedV {α} {vers : Int} {body : Rd.RHeader → Rd α} {bs : List Byte} {a : α}
    (hb : bs.length + 2 < 2 ^ 30) (hv : InI 2 vers)
    (hr : ∀ h : Rd.RHeader, h.vers = vers → Reads (body h) bs a) :
    Reads (do let h ← Rd.header; body h) (hdrBytes bs.length vers ++ bs) a := by
  intro r hs hc hp
  have hp1 := RBuffer.prefix_left hp
  rw [Rd.bind_ok (Reads.hdr hb hv r hs hc hp1)]
  have h6 : (hdrBytes bs.length vers).length = 6 := hdrBytes_length _ _
  have := hr ⟨r.c + r.offset, bs.length + 2, vers⟩ rfl (r.adv 6) hs (by have := RBuffer.adv_le hc hp1; rwa [h6] at this)
    (by have := RBuffer.prefix_adv hp; rwa [h6] at this)
  rw [this]
  simp

theorem Reads.ensureMax {v max : Int} (h : v ≤ max) : Reads (Rd.ensureMax v max) [] () := by
  unfold Rd.ensureMax; rw [if_neg (by omega)]; exact Reads.pure ()

theorem Reads.ensureMin {v min : Int} (h : min < v) : Reads (Rd.ensureMin v min) [] () := by
  unfold Rd.ensureMin; rw [if_neg (by omega)]; exact Reads.pure ()

/-! ### TObject -/

/-- Field ranges. -/
def TObject.InRange (o : TObject) : Prop := InU 4 o.id ∧ InU 4 o.bits

instance (o : TObject) : Decidable o.InRange := inferInstanceAs (Decidable (_ ∧ _))

def encObj (o : TObject) : List Byte :=
  beBytes 2 1 ++
    (if o.testBits kIsReferenced then beBytes 4 (o.id &&& 0xffffff) ++ (beBytes 4 o.bits ++ beBytes 2 0)
     else beBytes 4 o.id ++ beBytes 4 o.bits)

theorem Writes.obj (o : TObject) : Writes o.marshal (encObj o) (encObj o).length := by
  apply Writes.counted
  refine Writes.bind (Writes.bytes _) ?_
  split
  · exact Writes.bind (Writes.bytes _) (Writes.bind (Writes.bytes _) (Writes.bytes _))
  · exact Writes.bind (Writes.bytes _) (Writes.bytes _)

theorem testBits_onHeap (o : TObject) :
    TObject.testBits { o with bits := o.bits ||| kIsOnHeap } kIsReferenced =
      o.testBits kIsReferenced := by
  unfold TObject.testBits
  have : ((o.bits ||| kIsOnHeap) &&& kIsReferenced) = o.bits &&& kIsReferenced := by
    rw [Nat.and_or_distrib_right]
    have : kIsOnHeap &&& kIsReferenced = 0 := by decide
    rw [this, Nat.or_zero]
  rw [this]

/-- What the reader makes of a written `TObject`. -/
def TObject.afterRead (o : TObject) : TObject :=
  { id := if o.testBits kIsReferenced then o.id &&& 0xffffff else o.id, bits := o.bits ||| kIsOnHeap }

theorem afterRead_testBits (o : TObject) (id : Nat) :
    TObject.testBits { id := id, bits := o.bits ||| kIsOnHeap } kIsReferenced =
      o.testBits kIsReferenced := testBits_onHeap { o with id := id }

theorem Reads.skipVersion : Reads (Rd.skipVersion []) (beBytes 2 1) () := by
  refine Reads.congr (Reads.bind (Reads.sint (k := 2) (v := 1) (by decide) (by decide))
    (b2 := []) ?_) (by decide : beBytes 2 (wrapI 2 1) ++ [] = beBytes 2 1)
  rw [if_neg (by decide)]
  show Reads (if 1 < (1 : Int) ∨ ([] : Str) = [] then Pure.pure () else Rd.panic) [] ()
  rw [if_pos (Or.inr rfl)]
  exact Reads.pure ()

theorem Reads.obj {o : TObject} (h : o.InRange) : Reads TObject.unmarshal (encObj o) o.afterRead := by
  unfold TObject.unmarshal encObj
  refine Reads.bind Reads.skipVersion ?_
  by_cases ht : o.testBits kIsReferenced
  · rw [if_pos ht]
    have hid : (o.id &&& 0xffffff) < 256 ^ 4 :=
      Nat.lt_of_le_of_lt Nat.and_le_right (by decide)
    refine Reads.bind (Reads.uint hid) (Reads.bind (Reads.uint h.2) ?_)
    simp only [afterRead_testBits, ht, if_true]
    refine Reads.congr (Reads.bind (Reads.uint (k := 2) (v := 0) (by decide)) (b2 := [])
      (b := o.afterRead) ?_) (by simp)
    simp only [TObject.afterRead, ht, if_true]
    exact Reads.pure _
  · rw [if_neg ht]
    refine Reads.congr (Reads.bind (Reads.uint h.1)
      (Reads.bind (b2 := []) (b := o.afterRead) (Reads.uint h.2) ?_)) (by simp)
    simp only [afterRead_testBits, ht, TObject.afterRead]
    exact Reads.pure _

theorem encObj_length (o : TObject) :
    (encObj o).length = if o.testBits kIsReferenced then 12 else 10 := by
  unfold encObj; split <;> simp

/-! ### TNamed -/

/-- Field ranges. -/
def TNamed.InRange (n : TNamed) : Prop :=
  n.obj.InRange ∧ utf8 n.name = true ∧ utf8 n.title = true ∧
    n.name.length + n.title.length < 2 ^ 30 - 30

instance (o : TNamed) : Decidable o.InRange := inferInstanceAs (Decidable (_ ∧ _ ∧ _ ∧ _))

def TNamed.encBody (n : TNamed) : List Byte :=
  encObj n.obj ++ (encStr n.name ++ encStr n.title)

theorem TNamed.encBody_length (n : TNamed) (h : n.InRange) : n.encBody.length + 2 < 2 ^ 30 := by
  obtain ⟨_, _, _, h⟩ := h
  simp only [TNamed.encBody, List.length_append, encObj_length, encStr_length]
  split <;> split <;> split <;> omega

def TNamed.enc (n : TNamed) : List Byte := hdrBytes n.encBody.length 1 ++ n.encBody

theorem TNamed.writes {n : TNamed} (h : n.InRange) :
    WritesNE n.marshal n.enc n.enc.length := by
  unfold TNamed.marshal
  refine WritesNE.congr (WritesNE.bind WritesNE.lenMinusOne (b2 := n.enc) (Writes.ne ?_))
    (by simp)
  exact Writes.framed (vers := rversNamed)
    (Writes.bind (Writes.obj _).drop (Writes.bind (Writes.string (by have := h.2.2.2; omega))
      (Writes.string (by have := h.2.2.2; omega)))).ne

theorem TNamed.reads {n : TNamed} (h : n.InRange) :
    Reads TNamed.unmarshal n.enc { n with obj := n.obj.afterRead } := by
  refine Reads.framedV (TNamed.encBody_length n h) (by decide) fun _ _ => ?_
  refine Reads.bind (Reads.obj h.1) (Reads.bind (Reads.string (by have := h.2.2.2; omega) h.2.1) ?_)
  refine (Reads.bind (b2 := []) (Reads.string (by have := h.2.2.2; omega) h.2.2.1) ?_).congr
    (by simp)
  exact Reads.pure _

/-! ### Attributes -/

theorem ColorNamed.code_mem (p : ColorNamed × Int) (h : p ∈ ColorNamed.table) :
    ColorNamed.code p.1 = p.2 := by
  have : ∀ q ∈ ColorNamed.table, ColorNamed.code q.1 = q.2 := by decide +kernel
  exact this p h

theorem Color.toI16_fromI16 (i : Int) : (Color.fromI16 i).toI16 = i := by
  unfold Color.fromI16 ColorNamed.fromI16
  cases h : ColorNamed.table.find? (·.2 = i) with
  | none => rfl
  | some p =>
    have h1 := List.mem_of_find?_eq_some h
    have h2 := List.find?_some h
    simp only [Option.map_some, Color.toI16]
    rw [ColorNamed.code_mem p h1]
    simpa using h2

/-- Colours the reader can produce. -/
def Color.Normal (c : Color) : Prop := Color.fromI16 c.toI16 = c

instance (c : Color) : Decidable c.Normal := inferInstanceAs (Decidable (_ = _))

def AttLine.InRange (a : AttLine) : Prop :=
  InI 2 a.color.toI16 ∧ InI 2 a.style ∧ InI 2 a.width
instance (a : AttLine) : Decidable a.InRange := inferInstanceAs (Decidable (_ ∧ _ ∧ _))
def AttFill.InRange (a : AttFill) : Prop := InI 2 a.color.toI16 ∧ InI 2 a.style
instance (a : AttFill) : Decidable a.InRange := inferInstanceAs (Decidable (_ ∧ _))
def AttMarker.InRange (a : AttMarker) : Prop :=
  InI 2 a.color.toI16 ∧ InI 2 a.style ∧ InU 4 a.width
instance (a : AttMarker) : Decidable a.InRange := inferInstanceAs (Decidable (_ ∧ _ ∧ _))

def encI (k : Nat) (v : Int) : List Byte := beBytes k (wrapI k v)

@[simp] theorem encI_length (k v) : (encI k v).length = k := beBytes_length _ _

def AttLine.encBody (a : AttLine) : List Byte :=
  encI 2 a.color.toI16 ++ (encI 2 a.style ++ encI 2 a.width)
def AttFill.encBody (a : AttFill) : List Byte := encI 2 a.color.toI16 ++ encI 2 a.style
def AttMarker.encBody (a : AttMarker) : List Byte :=
  encI 2 a.color.toI16 ++ (encI 2 a.style ++ beBytes 4 a.width)

/-- A record with its header. -/
def encFramed (vers : Int) (body : List Byte) : List Byte := hdrBytes body.length vers ++ body

@[simp] theorem encFramed_length (vers : Int) (body : List Byte) :
    (encFramed vers body).length = 6 + body.length := by simp [encFramed]

def AttLine.enc (a : AttLine) : List Byte := encFramed 2 a.encBody
def AttFill.enc (a : AttFill) : List Byte := encFramed 2 a.encBody
def AttMarker.enc (a : AttMarker) : List Byte := encFramed 2 a.encBody

theorem AttLine.writes (a : AttLine) : Writes a.marshal a.enc a.enc.length :=
  Writes.framed (Writes.bind (Writes.bytes _) (Writes.bind (Writes.bytes _) (Writes.bytes _))).ne
theorem AttFill.writes (a : AttFill) : Writes a.marshal a.enc a.enc.length :=
  Writes.framed (Writes.bind (Writes.bytes _) (Writes.bytes _)).ne
theorem AttMarker.writes (a : AttMarker) : Writes a.marshal a.enc a.enc.length :=
  Writes.framed (Writes.bind (Writes.bytes _) (Writes.bind (Writes.bytes _) (Writes.bytes _))).ne

theorem AttLine.reads {a : AttLine} (h : a.InRange) :
    Reads AttLine.unmarshal a.enc { a with color := Color.fromI16 a.color.toI16 } := by
  refine Reads.framedMax (by simp [AttLine.encBody]) (by decide) (by decide) ?_
  refine Reads.bind (Reads.sint (by decide) h.1) (Reads.bind (Reads.sint (by decide) h.2.1) ?_)
  refine (Reads.bind (b2 := []) (Reads.sint (by decide) h.2.2) ?_).congr (List.append_nil _)
  exact Reads.pure _
theorem AttFill.reads {a : AttFill} (h : a.InRange) :
    Reads AttFill.unmarshal a.enc { a with color := Color.fromI16 a.color.toI16 } := by
  refine Reads.framedMax (by simp [AttFill.encBody]) (by decide) (by decide) ?_
  refine Reads.bind (Reads.sint (by decide) h.1) ?_
  refine (Reads.bind (b2 := []) (Reads.sint (by decide) h.2) ?_).congr (List.append_nil _)
  exact Reads.pure _
theorem AttMarker.reads {a : AttMarker} (h : a.InRange) :
    Reads AttMarker.unmarshal a.enc { a with color := Color.fromI16 a.color.toI16 } := by
  refine Reads.framedMax (by simp [AttMarker.encBody]) (by decide) (by decide) ?_
  refine Reads.bind (Reads.sint (by decide) h.1) (Reads.bind (Reads.sint (by decide) h.2.1) ?_)
  refine (Reads.bind (b2 := []) (Reads.uint h.2.2) ?_).congr (List.append_nil _)
  exact Reads.pure _

/-! ### TIOFeatures -/

def encIo (v : Nat) : List Byte :=
  encFramed 1 ((if v ≠ 0 then [0x1a, 0xa1, 0x2f, 0x10] else []) ++ beBytes 1 v)

theorem Writes.io (v : Nat) : Writes (TioFeatures.marshal v) (encIo v) (encIo v).length := by
  apply Writes.framed
  by_cases h : v = 0
  · subst h
    exact (Writes.bytes (beBytes 1 0)).ne
  · simp only [h, ne_eq, not_false_eq_true, if_true]
    exact (Writes.bind (Writes.bytes _) (Writes.bytes _)).ne

theorem Reads.io {v : Nat} (h : InU 1 v) : Reads TioFeatures.unmarshal (encIo v) v := by
  refine Reads.framedMax (by split <;> simp) (by decide) (by decide) ?_
  by_cases h0 : v = 0
  · subst h0
    refine (Reads.bind (b2 := []) (Reads.uint (k := 1) (v := 0) (by decide)) ?_).congr (by simp)
    exact Reads.pure _
  · simp only [h0, ne_eq, not_false_eq_true, if_true]
    have h1 : Reads Rd.u8 [0x1a] 0x1a := Reads.uint (k := 1) (v := 0x1a) (by decide)
    refine (Reads.bind h1 (b2 := [0xa1, 0x2f, 0x10] ++ beBytes 1 v) ?_).congr (by simp)
    rw [if_pos (by decide)]
    exact Reads.bind (Reads.take [0xa1, 0x2f, 0x10]) (Reads.uint h)

/-! ### TObjString -/

def encObjString (o : TObject) (s : Str) : List Byte := encFramed 1 (encObj o ++ encStr s)

theorem Reads.objString {o : TObject} {s : Str} (ho : o.InRange) (hu : utf8 s = true)
    (hl : s.length < 2 ^ 30 - 30) :
    Reads TObjString.unmarshal (encObjString o s) (o.afterRead, s) := by
  refine Reads.framedMax ?_ (by decide) (by decide) ?_
  · simp only [List.length_append, encObj_length, encStr_length]
    split <;> split <;> omega
  · refine Reads.bind (Reads.obj ho) ((Reads.bind (b2 := []) (Reads.string (by omega) hu) ?_).congr
      (by simp))
    exact Reads.pure _

end Verif
