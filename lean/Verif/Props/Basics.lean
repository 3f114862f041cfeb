import Verif.Lemmas.Values
/-
C01, C02, C03, C04: primitives, strings, nested containers, record framing.
-/
namespace Verif

/-- The primitive types of the format. -/
def Ty.IsPrim : Ty → Prop
  | .string | .vec _ | .arr _ _ => False
  | _ => True

/-- Size on disk of a primitive, from the ROOT format. -/
def Ty.primSize : Ty → Nat
  | .bool | .i8 | .u8 => 1
  | .i16 | .u16 => 2
  | .i32 | .u32 | .f32 => 4
  | .i64 | .u64 | .f64 => 8
  | _ => 0

/-- C01: every value of every primitive type is read back identical, from any position, by a read
that consumes exactly the bytes the write appended; the number of bytes is the one of the type, and
the writer reports it. -/
theorem C01_primitive_roundtrip (t : Ty) (ht : t.IsPrim) (v : t.Val) (hv : t.Ok v) :
    ∃ bs : List Byte, bs.length = t.primSize ∧ RoundTripAs (t.marshal v) t.unmarshal v bs := by
  refine ⟨t.enc v, ?_, roundTripAs_of (Writes.counted (t.writes_put v hv)) (t.reads_unmarshal v hv)⟩
  cases t <;> first
    | exact ht.elim
    | exact beBytes_length _ _

example : Ty.IsPrim .i16 ∧ Ty.Ok .i16 (-2 : Int) := ⟨trivial, by decide⟩
example : Ty.IsPrim .u64 ∧ Ty.Ok .u64 (2 ^ 64 - 1 : Nat) := ⟨trivial, by decide⟩

/-- C01, byte order: the `i`-th byte of an unsigned integer stored on `k` bytes is its `i`-th
base-256 digit counted from the most significant one. -/
theorem C01_big_endian (k v i : Nat) (hi : i < k) :
    ∃ w, Wr.bytes (beBytes k v) (WBuffer.new 0) = .ok ((), w) ∧
      w.p[i]? = some (UInt8.ofNat (v / 256 ^ (k - 1 - i))) := by
  refine ⟨_, rfl, ?_⟩
  simp only [WBuffer.new, List.nil_append]
  induction k generalizing i with
  | zero => omega
  | succ k ih =>
    cases i with
    | zero => simp [beBytes]
    | succ i =>
      have := ih i (by omega)
      simp only [beBytes, List.getElem?_cons_succ, this]
      congr 4
      omega

example : (1 : Nat) < 4 := by decide

/-- C01, signed values: what `write_i32` & co. store is the two's complement of the value. -/
theorem C01_twos_complement (k : Nat) (v : Int) (hv : InI k v) :
    (wrapI k v : Int) = if 0 ≤ v then v else v + (256 ^ k : Nat) := by
  obtain ⟨h1, h2⟩ := hv
  unfold wrapI
  have hpos : (0 : Int) < (256 ^ k : Nat) := by
    have : 0 < 256 ^ k := Nat.pow_pos (by decide)
    omega
  have hnn := Int.emod_nonneg v (by omega : ((256 ^ k : Nat) : Int) ≠ 0)
  rw [Int.toNat_of_nonneg hnn]
  split
  · exact Int.emod_eq_of_lt (by omega) (by omega)
  · rw [← Int.add_emod_right, Int.emod_eq_of_lt (by omega) (by omega)]

example : InI 4 (-5) := by decide

/-- C02: every string below 2^31 bytes is read back, its encoding takes 1+n bytes below 255 and
5+n from there on.  `utf8` is the invariant of Rust strings. -/
theorem C02_string_roundtrip (s : Str) (hu : utf8 s = true) (hl : s.length < 2 ^ 31) :
    ∃ bs : List Byte,
      bs.length = (if s.length < 255 then 1 + s.length else 5 + s.length) ∧
      RoundTripAs (Wr.counted (Wr.string s)) Rd.string s bs := by
  refine ⟨encStr s, ?_, roundTripAs_of (Writes.counted (Writes.string hl))
    (Reads.string (by omega) hu)⟩
  rw [encStr_length]; split <;> omega

example : utf8 (b! "café") = true ∧ (b! "café").length < 2 ^ 31 := by decide
example : utf8 (List.replicate 255 65) = true ∧ (List.replicate 255 (65 : Byte)).length < 2 ^ 31 := by
  decide +kernel

/-- C02, NUL terminated class names: read back when they hold no NUL and are not longer than the
limit of the reader. -/
theorem C02_cstring_roundtrip (s : Str) (n : Nat) (h0 : (0 : Byte) ∉ s) (hu : utf8 s = true)
    (hn : s.length ≤ n) :
    RoundTripAs (Wr.counted (Wr.cstring s)) (Rd.cstring n) s (s ++ [0]) :=
  roundTripAs_of (Writes.counted (Writes.cstring s)) (Reads.cstring n h0 hu hn)

example : (0 : Byte) ∉ b! "TBranch" ∧ utf8 (b! "TBranch") = true ∧ (b! "TBranch").length ≤ 80 := by
  decide

/-- C03: a value of any nesting of primitives, strings, vectors and fixed-size arrays is read back
equal, the reader stops exactly at its end and the writer reports the number of bytes. -/
theorem C03_nested_roundtrip (t : Ty) (v : t.Val) (hv : t.Ok v) :
    RoundTrip (t.marshal v) t.unmarshal v :=
  ⟨t.enc v, roundTripAs_of (Writes.counted (t.writes_put v hv)) (t.reads_unmarshal v hv)⟩

example : Ty.Ok (.vec (.arr 2 (.vec .string)))
    ([[[b! "a", []], []], [[], [b! "bc"]]] : List (List (List Str))) := by decide

/-- C03, several values one after the other (the entries of a basket). -/
theorem C03_sequence_roundtrip (t : Ty) (vs : List t.Val) (hv : ∀ v ∈ vs, t.Ok v) :
    RoundTrip (Wr.counted (Wr.each (fun v => t.marshal v >>= fun _ => pure ()) vs))
      (Rd.times vs.length t.unmarshal) vs := by
  refine ⟨vs.flatMap t.enc, roundTripAs_of (Writes.counted (Writes.each fun v h => ?_))
    (Reads.times fun v h => t.reads_unmarshal v (hv v h))⟩
  have := Writes.bind (Writes.counted (t.writes_put v (hv v h)))
    (f := fun _ => (pure () : Wr Unit)) (Writes.pure ())
  simpa [Ty.marshal] using this

/-- C04: whatever the body writer is (in particular one that itself writes framed records), if it
appends `body` then header + body + back-patch appends a 6 byte frame followed by `body`, changes
nothing before it, reports the total size, and `read_header` on those bytes returns the version and
a length that points exactly past the record. -/
theorem C04_framing {α} (vers : Int) (hv : InI 2 vers) (bodyW : Wr α) (body : List Byte)
    (hlen : body.length < 2 ^ 30 - 2)
    (w : WBuffer) (hw : w.Consistent)
    (hbody : ∀ w1 : WBuffer, w1.Consistent → w1.p ≠ [] → ∃ a w2, bodyW w1 = .ok (a, w2) ∧
      w2.p = w1.p ++ body ∧ w2.c = w1.c + body.length ∧ w2.offset = w1.offset) :
    ∃ (frame : List Byte) (w' : WBuffer),
      (do let h ← Wr.header vers; let _ ← bodyW; Wr.setHeader h) w = .ok (6 + body.length, w') ∧
      frame.length = 6 ∧ w'.p = w.p ++ frame ++ body ∧ w'.Consistent ∧
      ∀ (pre post : List Byte) (r : RBuffer), r.p = pre ++ (frame ++ body) ++ post →
        r.c = pre.length → r.skip = none →
        ∃ h, Rd.header r = .ok (h, { r with c := pre.length + 6 }) ∧ h.vers = vers ∧
          h.pos = r.offset + pre.length ∧
          h.pos + 4 + h.len = r.offset + pre.length + (frame ++ body).length := by
  have hw' : w.c = w.p.length := hw
  obtain ⟨a, w2, h2, hp2, hc2, ho2⟩ := hbody (w.app (beBytes 4 0 ++ beBytes 2 (wrapI 2 vers)))
    (by simp [WBuffer.Consistent, hw']) (by simp [beBytes])
  have hset := Wr.setHeader_gen w.p w2 vers body vers (by simp [hp2])
    (by simp [hp2, hc2, hw']; omega)
  refine ⟨hdrBytes body.length vers,
    { w2 with p := w.p ++ (hdrBytes body.length vers ++ body) }, ?_, hdrBytes_length _ _, ?_, ?_, ?_⟩
  · rw [Wr.bind_ok (Wr.header_eq vers w), Wr.bind_ok h2]
    have ho : w2.offset = w.offset := ho2
    rw [hw', ← ho]
    exact hset
  · simp
  · simp [WBuffer.Consistent, hc2, hw']; omega
  · intro pre post r hp hc hs
    have := Reads.hdr (n := body.length) (vers := vers) (by omega) hv r hs
      (by rw [hp, hc]; simp) (by
        simp only [RBuffer.rest, hp, hc]
        simp [List.append_assoc])
    refine ⟨⟨r.c + r.offset, body.length + 2, vers⟩, this.trans ?_, rfl, ?_, ?_⟩
    · simp [RBuffer.adv, hc]
    · simp [hc]; omega
    · simp [hc]; omega

/-- The hypotheses are met by a nested framed record. -/
example : InI 2 20 ∧ (∀ w1 : WBuffer, w1.Consistent → w1.p ≠ [] →
    ∃ a w2, Wr.framed 3 (Wr.u8 7) w1 = .ok (a, w2) ∧
      w2.p = w1.p ++ (hdrBytes 1 3 ++ [7]) ∧ w2.c = w1.c + (hdrBytes 1 3 ++ [7]).length ∧
      w2.offset = w1.offset) := by
  refine ⟨by decide, fun w1 h1 hne => ?_⟩
  have := Writes.framed (vers := 3) (body := Wr.u8 7) (bs := [7]) (Writes.bytes [7]).ne w1 h1
  exact ⟨_, _, this, rfl, rfl, rfl⟩

end Verif
