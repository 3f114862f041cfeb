import Verif.Lemmas.CursorObjects
import Verif.Lemmas.SkipHeader
import Verif.Lemmas.KeyLoad
import Verif.Model.Open
/-
C36, C37, C39: how reads move the cursor, what they do with too little data, and optional headers.
-/
namespace Verif

/-! ### C36 -/

/-- C36: every composition of fixed-size, string, header, version, value, object and record reads
leaves the cursor between its old position and the end of the data.  Missing: the null-terminated
string on its own, for which it is false (`C36_cstring_false`); as part of an object read it is
included. -/
theorem C36_inside_partial {α} {m : Rd α} (h : Reading m) : StaysInside m := by
  have key : Fwd m := by
    induction h with
    | fixed h => cases h with
      | u8 => exact Inside.u8.fwd
      | u16 => exact Inside.u16.fwd
      | u32 => exact Inside.u32.fwd
      | u64 => exact Inside.u64.fwd
      | i8 => exact Inside.i8.fwd
      | i16 => exact Inside.i16.fwd
      | i32 => exact Inside.i32.fwd
      | i64 => exact Inside.i64.fwd
      | f32 => exact Inside.f32.fwd
      | f64 => exact Inside.f64.fwd
      | bool => exact Inside.bool.fwd
      | bytes n => exact (Inside.take _).fwd
    | string => exact Inside.string.fwd
    | header => exact Inside.header.fwd
    | version cls => exact (Inside.skipVersion cls).fwd
    | value t => exact t.fwd
    | any fuel => exact (Inside.readAny fuel).fwd
    | object fuel cls h => exact (Inside.factory (Inside.readAny fuel).fwd h).fwd
    | tobject => exact Inside.tobject.fwd
    | named => exact Inside.named.fwd
    | key => exact Inside.key.fwd
    | dir => exact Inside.dir.fwd
    | fileHeader => exact Inside.fileHeader.fwd
    | segment => exact Inside.segment.fwd
    | skipHeader => exact Fwd.doSkipHeader
    | declare s h => exact Fwd.setSkip h
    | ret a => exact .pure a
    | fail e => exact (Inside.fail e).fwd
    | times n _ ih => exact ih.times n
    | seq _ _ ih1 ih2 => exact ih1.bind ih2
  exact key.stays

/-- A list of vectors of strings behind a header, then an object of any class. -/
example : Reading (do
    let _ ← Rd.header
    let v ← Ty.unmarshal (.vec (.vec .string))
    let o ← readAny 5
    pure (v, o.isSome)) :=
  .seq .header fun _ => .seq (.value _) fun _ => .seq (.any 5) fun _ => .ret _

/-- It applies to reads that succeed. -/
example : (do
    let h ← Rd.header
    let v ← Ty.unmarshal (.vec .string)
    pure (h.vers, v) : Rd (Int × List Str)) (RBuffer.new [64, 0, 0, 9, 0, 9, 0, 0, 0, 1, 2, 104, 105, 7] 0)
    = .ok ((9, [[104, 105]]), { RBuffer.new [64, 0, 0, 9, 0, 9, 0, 0, 0, 1, 2, 104, 105, 7] 0 with c := 13 }) := by
  rfl

/-- C36, fixed-size reads: the cursor moves by the size of the value. -/
theorem C36_width {α n} {m : Rd α} (h : FixedRead n m) {r r' : RBuffer} {a : α}
    (hm : m r = .ok (a, r')) : r' = { r with c := r.c + n } ∧ r.c + n ≤ r.p.length := by
  have take : ∀ {n b} {s : RBuffer}, Rd.take n r = .ok (b, s) →
      s = { r with c := r.c + n } ∧ r.c + n ≤ r.p.length := by
    intro n b s h
    unfold Rd.take at h
    split at h
    · next hl => cases h; exact ⟨rfl, hl⟩
    · cases h
  have one : ∀ {α n} {f : List Byte → α} {a : α} {s : RBuffer},
      (Rd.take n >>= fun b => (pure (f b) : Rd α)) r = .ok (a, s) →
      s = { r with c := r.c + n } ∧ r.c + n ≤ r.p.length := by
    intro α n f a s h
    obtain ⟨b, r1, h1, h2⟩ := Rd.bind_inv h
    cases h2
    exact take h1
  cases h with
  | u8 => exact one hm
  | u16 => exact one hm
  | u32 => exact one hm
  | u64 => exact one hm
  | i8 => exact one hm
  | i16 => exact one hm
  | i32 => exact one hm
  | i64 => exact one hm
  | f32 => exact one hm
  | f64 => exact one hm
  | bool =>
    obtain ⟨b, r1, h1, h2⟩ := Rd.bind_inv hm
    cases h2
    exact one h1
  | bytes => exact take hm

/-- C36, too little data: a read that needs more bytes than remain never returns a value. -/
theorem C36_short {α n} {m : Rd α} (h : FixedRead n m) {r : RBuffer} (hs : r.p.length < r.c + n) :
    ∀ a r', m r ≠ .ok (a, r') := by
  intro a r' hm
  have := (C36_width h hm).2
  omega

example : FixedRead 4 Rd.u32 ∧ (RBuffer.new [1, 2, 3] 0).p.length < (RBuffer.new [1, 2, 3] 0).c + 4 :=
  ⟨.u32, by decide⟩

/-- C36 fails for null-terminated strings: without a terminator the read succeeds and leaves the
cursor one byte behind the end, whatever the data. -/
theorem C36_cstring_false (data : List Byte) (h0 : ∀ b ∈ data, b ≠ 0) :
    ∃ s r', Rd.cstring data.length (RBuffer.new data 0) = .ok (s, r') ∧ r'.c = data.length + 1 := by
  have hu : ∀ l : List Byte, (∀ b ∈ l, b ≠ 0) → Rd.untilNul l = l := by
    intro l
    induction l with
    | nil => intro _; rfl
    | cons b l ih =>
      intro h
      simp only [Rd.untilNul, h b (by simp), if_false]
      rw [ih fun c hc => h c (by simp [hc])]
  have ht : Rd.takeUntilNul data.length (RBuffer.new data 0) =
      .ok (data, { RBuffer.new data 0 with c := data.length + 1 }) := by
    unfold Rd.takeUntilNul RBuffer.new
    simp [hu data h0]
  unfold Rd.cstring
  rw [Rd.bind_ok ht]
  split
  · exact ⟨_, _, rfl, rfl⟩
  · exact ⟨_, _, rfl, rfl⟩

example : ∀ b ∈ b! "abc", b ≠ 0 := by decide

/-! ### C37 -/

/-- C37 is false: every fixed-size read from every buffer that is too short aborts the program. -/
theorem C37_short_false {α n} {m : Rd α} (h : FixedRead n m) {r : RBuffer}
    (hs : r.p.length < r.c + n) : m r = .error .panic := by
  have take : ∀ {n}, r.p.length < r.c + n → Rd.take n r = .error .panic := by
    intro n h
    unfold Rd.take
    rw [if_neg (by omega)]
  cases h with
  | bool => exact Rd.bind_err (Rd.bind_err (take hs))
  | bytes => exact take hs
  | _ => exact Rd.bind_err (take hs)

/-- C37 is false for strings: one whose announced length goes beyond the end aborts. -/
theorem C37_string_false (n : Byte) (hn : n ≠ 0 ∧ n ≠ 255) (data : List Byte)
    (hs : data.length < n.toNat) : Rd.string (RBuffer.new (n :: data) 0) = .error .panic := by
  have hb : Rd.u8 (RBuffer.new (n :: data) 0) =
      .ok (n.toNat, { RBuffer.new (n :: data) 0 with c := 1 }) := by
    simp [Rd.u8, Rd.uint, Bind.bind, Rd.take, RBuffer.new, Pure.pure, beNat]
  have h255 : n.toNat ≠ 255 := fun h => hn.2 (UInt8.toNat_inj.1 h)
  have h0 : n.toNat ≠ 0 := fun h => hn.1 (UInt8.toNat_inj.1 h)
  have ht : Rd.take n.toNat { RBuffer.new (n :: data) 0 with c := 1 } = .error .panic := by
    unfold Rd.take RBuffer.new
    rw [if_neg (by simp; omega)]
  unfold Rd.string
  rw [Rd.bind_ok hb]
  simp only [h255, if_false]
  rw [Rd.bind_ok (a := n.toNat) (r' := { RBuffer.new (n :: data) 0 with c := 1 }) rfl]
  simp only [h0, if_false]
  exact Rd.bind_err ht

example : (5 : Byte) ≠ 0 ∧ (5 : Byte) ≠ 255 ∧ (b! "abc").length < (5 : Byte).toNat := by decide

/-- C37 is false for vectors: a negative size aborts, whatever the element type. -/
theorem C37_negative_false (t : Ty) (size : Int) (hn : size < 0) (hi : InI 4 size) (data : List Byte) :
    Ty.unmarshal (.vec t) (RBuffer.new (beBytes 4 (wrapI 4 size) ++ data) 0) = .error .panic := by
  have hd : Rd.doSkipHeader (RBuffer.new (beBytes 4 (wrapI 4 size) ++ data) 0) =
      .ok ((), RBuffer.new (beBytes 4 (wrapI 4 size) ++ data) 0) := rfl
  have h4 : Rd.i32 (RBuffer.new (beBytes 4 (wrapI 4 size) ++ data) 0) =
      .ok (size, (RBuffer.new (beBytes 4 (wrapI 4 size) ++ data) 0).adv
        (beBytes 4 (wrapI 4 size)).length) :=
    Reads.sint (by decide) hi _ rfl (Nat.zero_le _) ⟨data, rfl⟩
  show (Rd.doSkipHeader >>= _) _ = _
  rw [Rd.bind_ok hd, Rd.bind_ok h4, if_pos hn]
  rfl

example : (-1 : Int) < 0 ∧ InI 4 (-1) := by decide

/-- C37 is false for files: one of at least 76 bytes that is not in this format aborts. -/
theorem C37_magic_false (dec : Decoders) (fuel : Nat) (img : List Byte) (hl : 76 ≤ img.length)
    (hm : img.take 4 ≠ b! "root") : openFile dec fuel img = .error .panic := by
  unfold openFile
  have hr : readAt img 0 (64 + 12) = .ok (img.take 76) := by
    unfold readAt
    rw [if_neg (by decide), if_neg (by decide), if_pos (by simpa using hl)]
    simp
  rw [hr]
  show (readWith FileHeader.unmarshal (img.take 76) >>= _) = _
  have hu : readWith FileHeader.unmarshal (img.take 76) = .error .panic := by
    have ht : Rd.take 4 { p := img.take 76, c := 0, offset := 0, refs := [], skip := none } =
        .ok (img.take 4, { p := img.take 76, c := 4, offset := 0, refs := [], skip := none }) := by
      unfold Rd.take
      rw [if_pos (by simp; omega)]
      simp [List.take_take]
    unfold readWith FileHeader.unmarshal
    rw [Rd.bind_ok ht, if_pos (show img.take 4 ≠ rootMagic from hm)]
    rfl
  rw [hu]
  rfl

example : 76 ≤ (List.replicate 100 (0x89 : Byte)).length ∧
    (List.replicate 100 (0x89 : Byte)).take 4 ≠ b! "root" := by decide

/-- C37, what does hold: a file that ends before its header is refused with an error.  Missing:
everything that is read from memory, for which it is false (above). -/
theorem C37_short_file_partial (dec : Decoders) (fuel : Nat) (img : List Byte) (h : img.length < 76) :
    openFile dec fuel img = .error (.err .io) := by
  unfold openFile readAt
  rw [if_neg (by decide), if_neg (by decide), if_neg (by
    have : (0 : Int).toNat + ((64 + 12 : Int)).toNat = 76 := rfl
    omega), if_neg (by decide)]
  rfl

example : ((b! "root") ++ List.replicate 60 (0 : Byte)).length < 76 := by decide

/-- C37, what does hold: a key whose plain payload ends outside the file is refused with an error,
and so is one that starts before it. -/
theorem C37_payload_partial (dec : Decoders) (fuel : Nat) (img : List Byte) (k : Key)
    (hc : k.isCompressed = false) (hn : 0 < k.objLen) (hr : k.InRange) (hk : 0 ≤ k.keyLen)
    (h : k.seekKey + k.keyLen < 0 ∨ 0 ≤ k.seekKey ∧ (img.length : Int) < k.seekKey + k.keyLen + k.objLen) :
    k.object dec fuel img = .error (.err .io) := by
  have : readAt img (k.seekKey + k.keyLen) k.objLen = .error (.err .io) := by
    unfold readAt
    by_cases h0 : k.seekKey + k.keyLen < 0
    · rw [if_pos h0]
    · rw [if_neg h0, if_neg (by omega), if_neg (by omega), if_neg (by omega)]
  obtain ⟨h1, h2, -, -, -, h3, -, h4, -⟩ := hr
  have hd : InI 4 (k.nBytes - k.keyLen) := by
    unfold InI at h2 h3 ⊢
    rw [show ((256 ^ 4 : Nat) : Int) = 2 ^ 32 from rfl] at h2 ⊢
    rw [show ((256 ^ 2 : Nat) : Int) = 2 ^ 16 from rfl] at h3
    omega
  have hk' : k.keyLen < 2 ^ 15 := by
    unfold InI at h3
    rw [show ((256 ^ 2 : Nat) : Int) = 2 ^ 16 from rfl] at h3
    omega
  have hs : sumU64 k.seekKey k.keyLen = .ok (k.seekKey + k.keyLen) := by
    have hw : -2 ^ 63 ≤ k.seekKey ∧ k.seekKey < 2 ^ 63 := by
      unfold InSeek InI at h4
      split at h4
      · rw [show ((256 ^ 8 : Nat) : Int) = 2 ^ 64 from rfl] at h4
        omega
      · rw [show ((256 ^ 4 : Nat) : Int) = 2 ^ 32 from rfl] at h4
        omega
    by_cases h0 : 0 ≤ k.seekKey
    · exact sumU64_of h0 hw.2 hk (by omega)
    · unfold sumU64
      rw [asU64_neg (by omega) hw.1, asU64_small hk (by omega), if_neg (by omega)]
  unfold Key.object Key.load
  rw [if_neg (Classical.not_not.2 hd), hc, if_neg (by decide), hs]
  show (readAt img (k.seekKey + k.keyLen) k.objLen >>= _) = _
  rw [this]
  rfl

example : ({ nBytes := 1100, objLen := 1000, keyLen := 100, seekKey := 5000 } : Key).isCompressed
      = false ∧ ({ nBytes := 1100, objLen := 1000, keyLen := 100, seekKey := 5000 } : Key).InRange ∧
    (((List.replicate 80 (0 : Byte)).length : Int) < 5000 + 100 + 1000) := by decide

/-! ### C39 -/

/-- The two kinds of element that may have a header. -/
inductive Headed : Ty → Prop
  | string : Headed .string
  | vec (t : Ty) : Headed (.vec t)

/-- C39, header present: an element that starts with a header of the declared size is read as the
value that was written after the header. -/
theorem C39_present {t : Ty} (ht : Headed t) (v : t.Val) (hv : t.Ok v) {n : Nat} {w : WBuffer}
    (hw : t.marshal v (WBuffer.new 0) = .ok (n, w)) (hdr pre post : List Byte)
    (hl : 1 < hdr.length) (h64 : hdr.head? = some 64) :
    ∃ r', t.unmarshal (RBuffer.mk (pre ++ hdr ++ w.p ++ post) pre.length 0 []
        (some (hdr.length : Int))) = .ok (v, r') ∧
      r'.c = pre.length + hdr.length + w.p.length := by
  have hw2 := Writes.counted (t.writes_put v hv) (WBuffer.new 0) rfl
  have hwp : w.p = t.enc v := by
    have : (Except.ok (n, w) : Res (Nat × WBuffer)) = _ := hw.symm.trans hw2
    cases this
    rfl
  rw [hwp]
  generalize hr : RBuffer.mk (pre ++ hdr ++ t.enc v ++ post) pre.length 0 []
      (some (hdr.length : Int)) = r
  have hc : r.c ≤ r.p.length := by subst hr; simp
  have hp : hdr ++ t.enc v <+: r.rest := by
    subst hr
    simp [RBuffer.rest, List.append_assoc]
  have hsk : r.skip = some (hdr.length : Int) := by subst hr; rfl
  have hd := Rd.doSkipHeader_present hsk rfl hl h64 hc hp
  have hp2 := RBuffer.prefix_adv hp
  have hc2 := RBuffer.adv_le hc (RBuffer.prefix_left hp)
  have hrc : r.c = pre.length := by subst hr; rfl
  suffices h : ∃ sk, t.unmarshal r = .ok (v, { (r.adv hdr.length).adv (t.enc v).length with skip := sk })
      by
    obtain ⟨sk, h⟩ := h
    exact ⟨_, h, by simp [hrc]; try omega⟩
  cases ht with
  | string =>
    refine ⟨r.skip, ?_⟩
    show (Rd.doSkipHeader >>= fun _ => Rd.string) r = _
    rw [Rd.bind_ok hd]
    exact (Reads.string (Nat.lt_trans hv.1 (by decide)) hv.2).skipped SkipFree.string hc2 hp2
  | vec t =>
    refine ⟨none, ?_⟩
    show (Rd.doSkipHeader >>= _) r = _
    rw [Rd.bind_ok hd]
    exact Reads.vecBody hv.1 (fun a ha => t.reads_unmarshal a (hv.2 a ha)) hc2 hp2

/-- A vector of two numbers behind a six byte header. -/
example : Headed (.vec .i16) ∧ Ty.Ok (.vec .i16) [1, -1] ∧ 1 < [64, 0, 0, 10, 0, 9].length ∧
    ([64, 0, 0, 10, 0, 9] : List Byte).head? = some 64 :=
  ⟨.vec _, by decide, by decide, rfl⟩

/-- An element without a header that cannot be taken for one with a header. -/
def Headed.Clear : (t : Ty) → t.Val → Prop
  | .string => fun s : Str => s.length ≠ 64
  | .vec t => fun l : List t.Val => l.length < 2 ^ 30
  | _ => fun _ => True

/-- C39, header absent: an element without a header is read as the value that was written, for every
declared size but 1, unless it is a string of exactly 64 bytes or a vector of 2³⁰ items or more
(see `C39_absent_false`). -/
theorem C39_absent_partial {t : Ty} (ht : Headed t) (v : t.Val) (hv : t.Ok v) {n : Nat} {w : WBuffer}
    (hw : t.marshal v (WBuffer.new 0) = .ok (n, w)) (s : Int) (pre post : List Byte)
    (hs : s = 0 ∨ 1 < s) (hclear : Headed.Clear t v) :
    ∃ r', t.unmarshal (RBuffer.mk (pre ++ w.p ++ post) pre.length 0 [] (some s)) = .ok (v, r') ∧
      r'.c = pre.length + w.p.length := by
  have hw2 := Writes.counted (t.writes_put v hv) (WBuffer.new 0) rfl
  have hwp : w.p = t.enc v := by
    have : (Except.ok (n, w) : Res (Nat × WBuffer)) = _ := hw.symm.trans hw2
    cases this
    rfl
  rw [hwp]
  generalize hr : RBuffer.mk (pre ++ t.enc v ++ post) pre.length 0 [] (some s) = r
  have hc : r.c ≤ r.p.length := by subst hr; simp
  have hp : t.enc v <+: r.rest := by
    subst hr
    simp [RBuffer.rest, List.append_assoc]
  have hsk : r.skip = some s := by subst hr; rfl
  have hrc : r.c = pre.length := by subst hr; rfl
  suffices h : ∃ sk, t.unmarshal r = .ok (v, { r.adv (t.enc v).length with skip := sk }) by
    obtain ⟨sk, h⟩ := h
    exact ⟨_, h, by simp [hrc]; try omega⟩
  cases ht with
  | string =>
    have hclear : List.length (α := Byte) v ≠ 64 := hclear
    obtain ⟨hne, h64⟩ : encStr v ≠ [] ∧ (encStr v).head? ≠ some 64 := by
      unfold encStr
      split
      · next hlt =>
        have hlt : List.length (α := Byte) v < 255 := hlt
        refine ⟨by simp [beBytes], ?_⟩
        simp only [beBytes, List.cons_append, List.head?_cons, ne_eq, Option.some.injEq]
        intro h
        have := congrArg UInt8.toNat h
        simp at this
        omega
      · exact ⟨by simp [beBytes], by simp [beBytes]⟩
    have hd := Rd.doSkipHeader_absent hsk hs h64 hne hc hp
    refine ⟨r.skip, ?_⟩
    show (Rd.doSkipHeader >>= fun _ => Rd.string) r = _
    rw [Rd.bind_ok hd]
    exact (Reads.string (Nat.lt_trans hv.1 (by decide)) hv.2).skipped SkipFree.string hc hp
  | vec t =>
    have hclear : List.length (α := t.Val) v < 2 ^ 30 := hclear
    obtain ⟨hne, h64⟩ : encVec t.enc v ≠ [] ∧ (encVec t.enc v).head? ≠ some 64 := by
      unfold encVec
      refine ⟨by simp [beBytes], ?_⟩
      simp only [beBytes, List.cons_append, List.head?_cons, ne_eq, Option.some.injEq]
      intro h
      have := congrArg UInt8.toNat h
      simp at this
      omega
    have hd := Rd.doSkipHeader_absent hsk hs h64 hne hc hp
    refine ⟨none, ?_⟩
    show (Rd.doSkipHeader >>= _) r = _
    rw [Rd.bind_ok hd]
    exact Reads.vecBody hv.1 (fun a ha => t.reads_unmarshal a (hv.2 a ha)) hc hp

/-- A string of three bytes, read where headers of 6 bytes are declared. -/
example : Headed .string ∧ Ty.Ok .string (b! "abc") ∧ Headed.Clear .string (b! "abc") :=
  ⟨.string, by decide, by show (3 : Nat) ≠ 64; decide⟩

/-- C39 is false for a string of 64 bytes: its length byte is taken for the start of a header, and
what is read is not the string. -/
theorem C39_absent_false :
    Ty.Ok .string (List.replicate 64 97) ∧
    (∃ n w, Ty.marshal .string (List.replicate 64 97) (WBuffer.new 0) = .ok (n, w) ∧
      w.p = 64 :: List.replicate 64 97) ∧
    ∀ r', Ty.unmarshal .string { p := 64 :: List.replicate 64 97, skip := some 6 } ≠
      .ok (List.replicate 64 97, r') := by
  refine ⟨by decide +kernel, ⟨65, { p := 64 :: List.replicate 64 97, c := 65 }, rfl, rfl⟩, ?_⟩
  intro r' h
  have hp : Ty.unmarshal .string { p := 64 :: List.replicate 64 97, skip := some 6 } =
      .error .panic := rfl
  rw [hp] at h
  cases h

end Verif
