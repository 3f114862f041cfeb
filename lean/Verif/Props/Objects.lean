import Verif.Lemmas.Objects
/-
C05 (small objects), C06 (newer versions, first part), C42 (enumerations).
-/
namespace Verif

/-- C05, TObject: id and flag bits come back; the on-heap flag (bit 24) is always set, and the id of
a referenced object (bit 4) is cut to 24 bits. -/
theorem C05_object (id bits : Nat) (hid : id < 2 ^ 32) (hb : bits < 2 ^ 32) :
    RoundTrip (TObject.marshal ⟨id, bits⟩) TObject.unmarshal
      { id := if bits.testBit 4 then id % 2 ^ 24 else id, bits := bits ||| 2 ^ 24 } := by
  refine ⟨encObj ⟨id, bits⟩, roundTripAs_of (Writes.obj _) ?_⟩
  have := Reads.obj (o := ⟨id, bits⟩) ⟨by simpa [InU] using hid, by simpa [InU] using hb⟩
  have ht : TObject.testBits ⟨id, bits⟩ kIsReferenced = bits.testBit 4 := by
    unfold TObject.testBits
    have := and_two_pow_ne_zero bits 4
    simp only [show kIsReferenced = 2 ^ 4 from rfl]
    cases hc : bits.testBit 4 <;> simp [hc] at this ⊢ <;> exact this
  have he : (id &&& 0xffffff) = id % 2 ^ 24 := Nat.and_two_pow_sub_one_eq_mod id 24
  simp only [TObject.afterRead, ht, he] at this
  exact this

example : (5 : Nat) < 2 ^ 32 ∧ (0x3000010 : Nat) < 2 ^ 32 := by decide

/-- C05, TObject: an object the reader produced (on-heap flag set, short id if referenced) is a
fixed point: writing and reading it again changes nothing. -/
theorem C05_object_stable (id bits : Nat) (hid : id < 2 ^ 24) (hb : bits < 2 ^ 32)
    (hh : bits.testBit 24 = true) :
    RoundTrip (TObject.marshal ⟨id, bits⟩) TObject.unmarshal ⟨id, bits⟩ := by
  have h := C05_object id bits (by omega) hb
  have h1 : bits ||| 2 ^ 24 = bits := by
    apply Nat.eq_of_testBit_eq
    intro j
    rw [Nat.testBit_or, Nat.testBit_two_pow]
    by_cases hj : 24 = j
    · subst hj; simp [hh]
    · simp [hj]
  rw [h1, Nat.mod_eq_of_lt hid] at h
  simpa using h

example : Nat.testBit 0x3000000 24 = true ∧ (0x3000000 : Nat) < 2 ^ 32 := by decide

/-- C05, TNamed: name and title come back exactly.  The hypothesis on the sizes keeps the record
below the 2^30 byte limit of the byte count.  (The writer looks at the last byte already in the
buffer and aborts on an empty buffer, hence `RoundTripNE`.) -/
theorem C05_named (n : TNamed) (hid : n.obj.id < 2 ^ 24) (hb : n.obj.bits < 2 ^ 32)
    (hheap : n.obj.bits.testBit 24 = true)
    (hn : utf8 n.name = true) (ht : utf8 n.title = true)
    (hl : n.name.length + n.title.length < 2 ^ 30 - 30) :
    RoundTripNE n.marshal TNamed.unmarshal n := by
  have hr : n.InRange := ⟨⟨by simp [InU]; omega, by simpa [InU] using hb⟩, hn, ht, hl⟩
  have hst : n.obj.afterRead = n.obj := by
    have h1 : n.obj.bits ||| kIsOnHeap = n.obj.bits := by
      apply Nat.eq_of_testBit_eq
      intro j
      rw [Nat.testBit_or, show kIsOnHeap = 2 ^ 24 from rfl, Nat.testBit_two_pow]
      by_cases hj : 24 = j
      · subst hj; simp [hheap]
      · simp [hj]
    have he : (n.obj.id &&& 0xffffff) = n.obj.id := by
      rw [show (n.obj.id &&& 0xffffff) = n.obj.id % 2 ^ 24 from
        Nat.and_two_pow_sub_one_eq_mod n.obj.id 24, Nat.mod_eq_of_lt hid]
    simp only [TObject.afterRead, h1, he, ite_self]
  have := roundTripNE_of (TNamed.writes hr) (TNamed.reads hr)
  rwa [hst] at this

example : utf8 (b! "tree") = true ∧ utf8 (b! "my title") = true ∧
    (b! "tree").length + (b! "my title").length < 2 ^ 30 - 30 ∧
    TObject.default.id < 2 ^ 24 ∧ TObject.default.bits < 2 ^ 32 ∧
    TObject.default.bits.testBit 24 = true := by decide

/-- C05, TNamed, error branch: marshalling a name into an empty buffer aborts (debug builds). -/
theorem C05_named_empty_buffer (n : TNamed) (off : Nat) :
    n.marshal (WBuffer.new off) = .error .panic := by
  unfold TNamed.marshal
  exact Wr.bind_err (by simp [Wr.lenMinusOne, WBuffer.new])

/-- C05, TAttLine: colour code, style and width come back. -/
theorem C05_attline (color style width : Int) (hc : InI 2 color) (hs : InI 2 style)
    (hw : InI 2 width) :
    RoundTrip (AttLine.marshal ⟨Color.fromI16 color, style, width⟩) AttLine.unmarshal
      ⟨Color.fromI16 color, style, width⟩ := by
  have h : (Color.fromI16 color).toI16 = color := Color.toI16_fromI16 color
  have := roundTrip_of (AttLine.writes ⟨Color.fromI16 color, style, width⟩)
    (AttLine.reads ⟨by simpa [h] using hc, hs, hw⟩)
  simpa [h] using this

/-- C05, TAttFill. -/
theorem C05_attfill (color style : Int) (hc : InI 2 color) (hs : InI 2 style) :
    RoundTrip (AttFill.marshal ⟨Color.fromI16 color, style⟩) AttFill.unmarshal
      ⟨Color.fromI16 color, style⟩ := by
  have h : (Color.fromI16 color).toI16 = color := Color.toI16_fromI16 color
  have := roundTrip_of (AttFill.writes ⟨Color.fromI16 color, style⟩)
    (AttFill.reads ⟨by simpa [h] using hc, hs⟩)
  simpa [h] using this

/-- C05, TAttMarker (the size is an `f32` bit pattern). -/
theorem C05_attmarker (color style : Int) (width : Nat) (hc : InI 2 color) (hs : InI 2 style)
    (hw : width < 2 ^ 32) :
    RoundTrip (AttMarker.marshal ⟨Color.fromI16 color, style, width⟩) AttMarker.unmarshal
      ⟨Color.fromI16 color, style, width⟩ := by
  have h : (Color.fromI16 color).toI16 = color := Color.toI16_fromI16 color
  have := roundTrip_of (AttMarker.writes ⟨Color.fromI16 color, style, width⟩)
    (AttMarker.reads ⟨by simpa [h] using hc, hs, by simpa [InU] using hw⟩)
  simpa [h] using this

example : InI 2 602 ∧ InI 2 1001 ∧ InI 2 (-1) ∧ (0x3F800000 : Nat) < 2 ^ 32 := by decide

/-- C05, ROOT::TIOFeatures: every byte value comes back. -/
theorem C05_iofeatures (v : Nat) (hv : v < 256) :
    RoundTrip (TioFeatures.marshal v) TioFeatures.unmarshal v :=
  roundTrip_of (Writes.io v) (Reads.io (by simpa [InU] using hv))

example : (0x1a : Nat) < 256 := by decide

/-- C05, TObjString (read only in the library): the layout "header version 1, TObject, string" is
read back, for the object the reader itself would produce and any string. -/
theorem C05_objstring (id bits : Nat) (hid : id < 2 ^ 32) (hb : bits < 2 ^ 32) (s : Str)
    (hu : utf8 s = true) (hl : s.length < 2 ^ 30 - 30) :
    ∃ bs, (∀ w : WBuffer, w.Consistent → ∃ w', Wr.framed 1 (do
        Wr.drop (TObject.marshal ⟨id, bits⟩); Wr.string s) w = .ok (bs.length, w') ∧
          w.Appended bs w') ∧
      ∃ o, ReadsBack TObjString.unmarshal bs (o, s) := by
  refine ⟨encObjString ⟨id, bits⟩ s, fun w hw => ⟨_, Writes.framed (Writes.bind (Writes.obj _).drop
    (Writes.string (by omega))).ne w hw, rfl⟩, _, (Reads.objString ?_ hu hl).readsBack⟩
  exact ⟨by simpa [InU] using hid, by simpa [InU] using hb⟩

/-- C05, error branch: the library cannot write a TObjString. -/
theorem C05_objstring_write_unsupported (w : WBuffer) : TObjString.marshal w = .error .panic := rfl

/-! ### C06 -/

/-- C06 for the small records: bytes announcing a version above the supported one are refused with
the version error, whatever the byte count and whatever follows. -/
theorem C06_attributes_refuse_newer (r : RBuffer) (v : Int) (hc : r.c ≤ r.p.length)
    (h : HasVersion (r.p.drop r.c) v) :
    (2 < v → AttLine.unmarshal r = .error (.err .versionTooHigh) ∧
      AttFill.unmarshal r = .error (.err .versionTooHigh) ∧
      AttMarker.unmarshal r = .error (.err .versionTooHigh)) ∧
    (1 < v → TioFeatures.unmarshal r = .error (.err .versionTooHigh) ∧
      TObjString.unmarshal r = .error (.err .versionTooHigh)) :=
  ⟨fun hv => ⟨refuses_newer hc h hv, refuses_newer hc h hv, refuses_newer hc h hv⟩,
   fun hv => ⟨refuses_newer hc h hv, refuses_newer hc h hv⟩⟩

example : HasVersion [0x40, 0, 0, 8, 0, 3, 1, 2] 3 := by
  rw [show (3 : Int) = toSigned 2 ((0 : Byte).toNat * 256 + (3 : Byte).toNat) by decide +kernel]
  exact HasVersion.counted 0x40 0 0 8 0 3 [1, 2] (by decide +kernel)
example : HasVersion [0, 3, 1, 2] 3 := by
  rw [show (3 : Int) = toSigned 2 ((0 : Byte).toNat * 256 + (3 : Byte).toNat) by decide +kernel]
  exact HasVersion.bare 0 3 1 2 [] (by decide +kernel)

/-! ### C42 -/

/-- C42, colours: every 16-bit code survives the conversion to a colour and back, and a code that
has a name is represented by its name. -/
theorem C42_color (i : Int) :
    (Color.fromI16 i).toI16 = i ∧ ∀ c : ColorNamed, c.code = i → Color.fromI16 i = .named c := by
  refine ⟨Color.toI16_fromI16 i, ?_⟩
  intro c hc
  subst hc
  cases c <;> decide

theorem EnumNamed.code_mem (p : EnumNamed × Int) (h : p ∈ EnumNamed.table) :
    EnumNamed.code p.1 = p.2 := by
  have : ∀ q ∈ EnumNamed.table, EnumNamed.code q.1 = q.2 := by decide +kernel
  exact this p h

/-- C42, element types: every 32-bit code survives, and every named type keeps its name. -/
theorem C42_enum (i : Int) :
    (EnumT.fromI32 i).toI32 = i ∧ ∀ e : EnumNamed, e.code = i → EnumT.fromI32 i = .named e := by
  constructor
  · unfold EnumT.fromI32 EnumNamed.fromI32
    cases h : EnumNamed.table.find? (·.2 = i) with
    | none => rfl
    | some p =>
      have h1 := List.mem_of_find?_eq_some h
      have h2 := List.find?_some h
      simp only [Option.map_some, EnumT.toI32]
      rw [EnumNamed.code_mem p h1]
      simpa using h2
  · intro e he
    subst he
    cases e <;> decide +kernel

example : ColorNamed.code .blue = 600 ∧ EnumNamed.code .stlString = 365 := by decide +kernel

end Verif
