import Verif.Model.WBuffer
import Verif.Model.RBuffer
import Verif.Lemmas.Bytes
/-
Composable facts about writers ("writes exactly these bytes") and readers ("reads these bytes as
this value").
-/
namespace Verif

/-! ### Writers -/

namespace WBuffer

/-- Counter and data agree (true of every buffer made by `WBuffer::new`). -/
def WF (w : WBuffer) : Prop := w.c = w.p.length

instance (w : WBuffer) : Decidable w.WF := inferInstanceAs (Decidable (_ = _))

/-- Append. -/
def app (w : WBuffer) (bs : List Byte) : WBuffer :=
  { w with p := w.p ++ bs, c := w.c + bs.length }

@[simp] theorem app_p (w : WBuffer) (bs) : (w.app bs).p = w.p ++ bs := rfl
@[simp] theorem app_c (w : WBuffer) (bs) : (w.app bs).c = w.c + bs.length := rfl
@[simp] theorem app_offset (w : WBuffer) (bs) : (w.app bs).offset = w.offset := rfl
@[simp] theorem app_refsP (w : WBuffer) (bs) : (w.app bs).refsP = w.refsP := rfl
@[simp] theorem app_refsS (w : WBuffer) (bs) : (w.app bs).refsS = w.refsS := rfl

theorem WF.app {w : WBuffer} (h : w.WF) (bs) : (w.app bs).WF := by
  simp [WF] at *; omega

@[simp] theorem app_nil (w : WBuffer) : w.app [] = w := by
  cases w; simp [WBuffer.app]

@[simp] theorem app_app (w : WBuffer) (a b) : (w.app a).app b = w.app (a ++ b) := by
  simp [WBuffer.app, Nat.add_assoc]

theorem new_WF (o : Nat) : (WBuffer.new o).WF := rfl

end WBuffer

/-- `m` appends exactly `bs` and returns `a`, whatever is already in the buffer. -/
def Writes {α} (m : Wr α) (bs : List Byte) (a : α) : Prop :=
  ∀ w : WBuffer, w.WF → m w = .ok (a, w.app bs)

/-- The same for a buffer that is not empty. -/
def WritesNE {α} (m : Wr α) (bs : List Byte) (a : α) : Prop :=
  ∀ w : WBuffer, w.WF → w.p ≠ [] → m w = .ok (a, w.app bs)

theorem Writes.ne {α} {m : Wr α} {bs a} (h : Writes m bs a) : WritesNE m bs a :=
  fun w hw _ => h w hw

theorem Wr.bind_ok {α β} {m : Wr α} {f : α → Wr β} {w a w'} (h : m w = .ok (a, w')) :
    (m >>= f) w = f a w' := by
  show (match m w with | .ok (a, w') => f a w' | .error e => .error e) = _
  rw [h]

theorem Wr.bind_err {α β} {m : Wr α} {f : α → Wr β} {w e} (h : m w = .error e) :
    (m >>= f) w = .error e := by
  show (match m w with | .ok (a, w') => f a w' | .error e => .error e) = _
  rw [h]

theorem Wr.pure_eq {α} (a : α) (w : WBuffer) : (pure a : Wr α) w = .ok (a, w) := rfl

theorem Writes.pure {α} (a : α) : Writes (Pure.pure a : Wr α) [] a := by
  intro w _; simp [Wr.pure_eq]

theorem Writes.bind {α β} {m : Wr α} {f : α → Wr β} {b1 b2 a b}
    (h1 : Writes m b1 a) (h2 : Writes (f a) b2 b) : Writes (m >>= f) (b1 ++ b2) b := by
  intro w hw
  rw [Wr.bind_ok (h1 w hw), h2 _ (hw.app _), WBuffer.app_app]

theorem WritesNE.bind {α β} {m : Wr α} {f : α → Wr β} {b1 b2 a b}
    (h1 : WritesNE m b1 a) (h2 : WritesNE (f a) b2 b) : WritesNE (m >>= f) (b1 ++ b2) b := by
  intro w hw hne
  rw [Wr.bind_ok (h1 w hw hne), h2 _ (hw.app _) (by simp [hne]), WBuffer.app_app]

theorem Writes.bindNE {α β} {m : Wr α} {f : α → Wr β} {b1 b2 a b}
    (h1 : Writes m b1 a) (hb : b1 ≠ []) (h2 : WritesNE (f a) b2 b) :
    Writes (m >>= f) (b1 ++ b2) b := by
  intro w hw
  rw [Wr.bind_ok (h1 w hw), h2 _ (hw.app _) (by simp [hb]), WBuffer.app_app]

theorem Writes.congr {α} {m : Wr α} {b1 b2 a} (h : Writes m b1 a) (hb : b1 = b2) :
    Writes m b2 a := hb ▸ h

theorem WritesNE.congr {α} {m : Wr α} {b1 b2 a} (h : WritesNE m b1 a) (hb : b1 = b2) :
    WritesNE m b2 a := hb ▸ h

theorem Writes.bytes (bs : List Byte) : Writes (Wr.bytes bs) bs () := fun _ _ => rfl

theorem Writes.each {α} {f : α → Wr Unit} {enc : α → List Byte} {l : List α}
    (h : ∀ a ∈ l, Writes (f a) (enc a) ()) : Writes (Wr.each f l) (l.flatMap enc) () := by
  induction l with
  | nil => exact Writes.pure ()
  | cons a as ih =>
    simp only [Wr.each, List.flatMap_cons]
    exact Writes.bind (h a (by simp)) (ih fun b hb => h b (by simp [hb]))

theorem WritesNE.each {α} {f : α → Wr Unit} {enc : α → List Byte} {l : List α}
    (h : ∀ a ∈ l, WritesNE (f a) (enc a) ()) : WritesNE (Wr.each f l) (l.flatMap enc) () := by
  induction l with
  | nil => exact (Writes.pure ()).ne
  | cons a as ih =>
    simp only [Wr.each, List.flatMap_cons]
    exact WritesNE.bind (h a (by simp)) (ih fun b hb => h b (by simp [hb]))

theorem WritesNE.lenMinusOne : WritesNE Wr.lenMinusOne [] () := by
  intro w _ hne
  simp [Wr.lenMinusOne, hne]

theorem Writes.counted {m : Wr Unit} {bs} (h : Writes m bs ()) :
    Writes (Wr.counted m) bs bs.length := by
  intro w hw
  unfold Wr.counted
  rw [Wr.bind_ok (a := w.c + w.offset) (w' := w) rfl]
  rw [Wr.bind_ok (h w hw)]
  rw [Wr.bind_ok (a := (w.app bs).c + w.offset) (w' := w.app bs) rfl, Wr.pure_eq]
  simp only [WBuffer.app_c]
  congr 2
  omega

theorem WritesNE.counted {m : Wr Unit} {bs} (h : WritesNE m bs ()) :
    WritesNE (Wr.counted m) bs bs.length := by
  intro w hw hne
  unfold Wr.counted
  rw [Wr.bind_ok (a := w.c + w.offset) (w' := w) rfl]
  rw [Wr.bind_ok (h w hw hne)]
  rw [Wr.bind_ok (a := (w.app bs).c + w.offset) (w' := w.app bs) rfl, Wr.pure_eq]
  simp only [WBuffer.app_c]
  congr 2
  omega

/-- The bytes of a record header: byte count with its mask, then the version. -/
def hdrBytes (bodyLen : Nat) (vers : Int) : List Byte :=
  beBytes 4 ((bodyLen + 2) ||| kByteCountMask) ++ beBytes 2 (wrapI 2 vers)

@[simp] theorem hdrBytes_length (n v) : (hdrBytes n v).length = 6 := by simp [hdrBytes]

/-- Patching the placeholder of a header written at the end of `p0`. -/
theorem Wr.setHeader_gen (p0 : List Byte) (w2 : WBuffer) (vers : Int) (body : List Byte) (v : Int)
    (hp : w2.p = p0 ++ (beBytes 4 0 ++ beBytes 2 (wrapI 2 vers) ++ body))
    (hc : w2.c = w2.p.length) :
    Wr.setHeader ⟨p0.length + w2.offset, v⟩ w2 =
      .ok (6 + body.length, { w2 with p := p0 ++ (hdrBytes body.length vers ++ body) }) := by
  have hc' : w2.c = p0.length + (4 + 2 + body.length) := by rw [hc, hp]; simp; omega
  unfold Wr.setHeader
  rw [Wr.bind_ok (a := w2.c + w2.offset) (w' := w2) rfl]
  have hcnt : w2.c + w2.offset - (p0.length + w2.offset) - 4 = body.length + 2 := by omega
  simp only [hcnt]
  have hin : Wr.inPlace (beBytes 4 ((body.length + 2) ||| kByteCountMask)) (p0.length + w2.offset)
      w2 = .ok ((), { w2 with p := p0 ++ (hdrBytes body.length vers ++ body) }) := by
    unfold Wr.inPlace
    have h1 : ¬ (p0.length + w2.offset < w2.offset) := by omega
    have h2 : p0.length + w2.offset - w2.offset = p0.length := by omega
    simp only [h1, h2, if_false, hp, beBytes_length]
    rw [if_pos (by simp)]
    congr 3
    simp [List.drop_append, List.drop_of_length_le, hdrBytes]
  rw [Wr.bind_ok hin, Wr.pure_eq]
  congr 2
  omega

theorem Wr.setHeader_eq (w0 : WBuffer) (hw0 : w0.WF) (vers : Int) (body : List Byte) (v) :
    Wr.setHeader ⟨w0.c + w0.offset, v⟩
      (w0.app (beBytes 4 0 ++ beBytes 2 (wrapI 2 vers) ++ body)) =
      .ok (6 + body.length, w0.app (hdrBytes body.length vers ++ body)) := by
  have hc : w0.c = w0.p.length := hw0
  have := Wr.setHeader_gen w0.p (w0.app (beBytes 4 0 ++ beBytes 2 (wrapI 2 vers) ++ body)) vers body
    v rfl (by simp [hc])
  rw [hc]
  rw [show (w0.app (beBytes 4 0 ++ beBytes 2 (wrapI 2 vers) ++ body)).offset = w0.offset from rfl]
    at this
  rw [this]
  simp [WBuffer.app]
  omega

theorem Wr.header_eq (vers : Int) (w : WBuffer) :
    Wr.header vers w = .ok (⟨w.c + w.offset, vers⟩,
      w.app (beBytes 4 0 ++ beBytes 2 (wrapI 2 vers))) := by
  simp [Wr.header, Bind.bind, Wr.pos, Wr.u32, Wr.u16, Wr.bytes, Pure.pure, WBuffer.app,
    Nat.add_assoc]

/-- A header, a body and the back-patch. -/
theorem Writes.framed {vers : Int} {body : Wr Unit} {bs}
    (hbody : WritesNE body bs ()) :
    Writes (Wr.framed vers body)
      (hdrBytes bs.length vers ++ bs) (hdrBytes bs.length vers ++ bs).length := by
  intro w hw
  unfold Wr.framed
  rw [Wr.bind_ok (Wr.header_eq vers w)]
  rw [Wr.bind_ok (hbody _ (hw.app _) (by simp [beBytes])), WBuffer.app_app,
    Wr.setHeader_eq w hw vers bs vers]
  simp

theorem Writes.drop {α} {m : Wr α} {bs a} (h : Writes m bs a) : Writes (Wr.drop m) bs () :=
  (Writes.bind h (Writes.pure ())).congr (by simp)

theorem WritesNE.drop {α} {m : Wr α} {bs a} (h : WritesNE m bs a) : WritesNE (Wr.drop m) bs () :=
  (WritesNE.bind h (Writes.pure ()).ne).congr (by simp)

/-! ### Readers -/

namespace RBuffer

/-- What is left to read. -/
def rest (r : RBuffer) : List Byte := r.p.drop r.c

/-- Move the cursor. -/
def adv (r : RBuffer) (n : Nat) : RBuffer := { r with c := r.c + n }

@[simp] theorem adv_p (r : RBuffer) (n) : (r.adv n).p = r.p := rfl
@[simp] theorem adv_c (r : RBuffer) (n) : (r.adv n).c = r.c + n := rfl
@[simp] theorem adv_offset (r : RBuffer) (n) : (r.adv n).offset = r.offset := rfl
@[simp] theorem adv_refs (r : RBuffer) (n) : (r.adv n).refs = r.refs := rfl
@[simp] theorem adv_skip (r : RBuffer) (n) : (r.adv n).skip = r.skip := rfl
@[simp] theorem adv_zero (r : RBuffer) : r.adv 0 = r := rfl
@[simp] theorem adv_adv (r : RBuffer) (m n) : (r.adv m).adv n = r.adv (m + n) := by
  simp [adv, Nat.add_assoc]
@[simp] theorem adv_rest (r : RBuffer) (n) : (r.adv n).rest = r.rest.drop n := by
  simp [rest]

theorem prefix_adv {r : RBuffer} {b1 b2 : List Byte} (h : b1 ++ b2 <+: r.rest) :
    b2 <+: (r.adv b1.length).rest := by
  obtain ⟨t, ht⟩ := h
  rw [adv_rest, ← ht]
  simp [List.append_assoc]

theorem prefix_left {r : RBuffer} {b1 b2 : List Byte} (h : b1 ++ b2 <+: r.rest) :
    b1 <+: r.rest := (List.prefix_append b1 b2).trans h

theorem prefix_le {r : RBuffer} {bs : List Byte} (hb : bs ≠ []) (h : bs <+: r.rest) :
    r.c + bs.length ≤ r.p.length := by
  have := h.length_le
  simp only [rest, List.length_drop] at this
  have : bs.length ≠ 0 := by simpa using hb
  omega

end RBuffer

/-- `m` reads the bytes `bs` as the value `a` and stops right after them, whatever follows. -/
def Reads {α} (m : Rd α) (bs : List Byte) (a : α) : Prop :=
  ∀ r : RBuffer, r.skip = none → r.c ≤ r.p.length → bs <+: r.rest →
    m r = .ok (a, r.adv bs.length)

theorem Rd.bind_ok {α β} {m : Rd α} {f : α → Rd β} {r a r'} (h : m r = .ok (a, r')) :
    (m >>= f) r = f a r' := by
  show (match m r with | .ok (a, r') => f a r' | .error e => .error e) = _
  rw [h]

theorem Rd.bind_err {α β} {m : Rd α} {f : α → Rd β} {r e} (h : m r = .error e) :
    (m >>= f) r = .error e := by
  show (match m r with | .ok (a, r') => f a r' | .error e => .error e) = _
  rw [h]

theorem Rd.pure_eq {α} (a : α) (r : RBuffer) : (pure a : Rd α) r = .ok (a, r) := rfl

theorem RBuffer.adv_le {r : RBuffer} {bs : List Byte} (hc : r.c ≤ r.p.length)
    (h : bs <+: r.rest) : (r.adv bs.length).c ≤ (r.adv bs.length).p.length := by
  have := h.length_le
  simp only [RBuffer.rest, List.length_drop] at this
  simp; omega

theorem Reads.pure {α} (a : α) : Reads (Pure.pure a : Rd α) [] a := by
  intro r _ _ _; simp [Rd.pure_eq]

theorem Reads.bind {α β} {m : Rd α} {f : α → Rd β} {b1 b2 a b}
    (h1 : Reads m b1 a) (h2 : Reads (f a) b2 b) : Reads (m >>= f) (b1 ++ b2) b := by
  intro r hs hc hp
  have hp1 := RBuffer.prefix_left hp
  rw [Rd.bind_ok (h1 r hs hc hp1),
    h2 _ (by simpa using hs) (RBuffer.adv_le hc hp1) (RBuffer.prefix_adv hp)]
  simp

theorem Reads.congr {α} {m : Rd α} {b1 b2 a} (h : Reads m b1 a) (hb : b1 = b2) :
    Reads m b2 a := hb ▸ h

theorem Rd.take_ok {r : RBuffer} {bs : List Byte} (hc : r.c ≤ r.p.length) (hp : bs <+: r.rest) :
    Rd.take bs.length r = .ok (bs, r.adv bs.length) := by
  unfold Rd.take
  have hle : r.c + bs.length ≤ r.p.length := by
    have := hp.length_le
    simp only [RBuffer.rest, List.length_drop] at this
    omega
  rw [if_pos hle]
  have : (r.p.drop r.c).take bs.length = bs := by
    obtain ⟨t, ht⟩ := hp
    simp only [RBuffer.rest] at ht
    rw [← ht]; simp
  rw [this]; rfl

theorem Rd.uint_ok {r : RBuffer} {bs : List Byte} {k : Nat} (hk : bs.length = k)
    (hc : r.c ≤ r.p.length) (hp : bs <+: r.rest) :
    Rd.uint k r = .ok (beNat bs, r.adv k) := by
  subst hk
  unfold Rd.uint
  rw [Rd.bind_ok (Rd.take_ok hc hp)]
  rfl

theorem Rd.sint_ok {r : RBuffer} {bs : List Byte} {k : Nat} (hk : bs.length = k)
    (hc : r.c ≤ r.p.length) (hp : bs <+: r.rest) :
    Rd.sint k r = .ok (toSigned k (beNat bs), r.adv k) := by
  subst hk
  unfold Rd.sint
  rw [Rd.bind_ok (Rd.take_ok hc hp)]
  rfl

theorem Reads.take (bs : List Byte) : Reads (Rd.take bs.length) bs bs := by
  intro r _ hc hp
  exact Rd.take_ok hc hp

theorem Reads.uint {k v : Nat} (h : v < 256 ^ k) : Reads (Rd.uint k) (beBytes k v) v := by
  have := (Reads.take (beBytes k v)).bind
    (f := fun b => (Pure.pure (beNat b) : Rd Nat)) (Reads.pure _)
  simpa [Rd.uint, beNat_beBytes_of_lt h] using this

theorem Reads.sint {k : Nat} {v : Int} (hk : 0 < k) (h : InI k v) :
    Reads (Rd.sint k) (beBytes k (wrapI k v)) v := by
  have := (Reads.take (beBytes k (wrapI k v))).bind
    (f := fun b => (Pure.pure (toSigned k (beNat b)) : Rd Int)) (Reads.pure _)
  simpa [Rd.sint, beNat_beBytes_of_lt (wrapI_lt k v), toSigned_wrapI hk h] using this

theorem Reads.times {α} {m : Rd α} {enc : α → List Byte} {l : List α}
    (h : ∀ a ∈ l, Reads m (enc a) a) : Reads (Rd.times l.length m) (l.flatMap enc) l := by
  induction l with
  | nil => exact Reads.pure []
  | cons a as ih =>
    simp only [List.length_cons, Rd.times, List.flatMap_cons]
    refine Reads.bind (h a (by simp)) ?_
    have := Reads.bind (ih fun b hb => h b (by simp [hb]))
      (f := fun as => (Pure.pure (a :: as) : Rd (List α))) (Reads.pure _)
    simpa using this

/-- Reading a framed record header. -/
theorem Reads.hdr {n : Nat} {vers : Int} (hn : n + 2 < 2 ^ 30) (hv : InI 2 vers) (r : RBuffer)
    (hs : r.skip = none) (hc : r.c ≤ r.p.length) (hp : hdrBytes n vers <+: r.rest) :
    Rd.header r = .ok (⟨r.c + r.offset, n + 2, vers⟩, r.adv 6) := by
  unfold Rd.header
  rw [Rd.bind_ok (a := r.c + r.offset) (r' := r) rfl]
  have h1 : Reads Rd.u32 (beBytes 4 ((n + 2) ||| kByteCountMask)) (2 ^ 30 + (n + 2)) := by
    rw [or_byteCountMask hn]
    exact Reads.uint (by omega)
  have hp1 := RBuffer.prefix_left (b1 := beBytes 4 ((n + 2) ||| kByteCountMask))
    (b2 := beBytes 2 (wrapI 2 vers)) hp
  rw [Rd.bind_ok (h1 r hs hc hp1)]
  rw [if_pos (by rw [and_byteCountMask_add hn]; decide)]
  have h2 : Reads Rd.u16 (beBytes 2 (wrapI 2 vers)) (wrapI 2 vers) := Reads.uint (wrapI_lt 2 vers)
  rw [Rd.bind_ok (h2 _ (by simpa using hs) (RBuffer.adv_le hc hp1)
    (RBuffer.prefix_adv (b1 := beBytes 4 ((n + 2) ||| kByteCountMask)) hp))]
  rw [Rd.pure_eq, toSigned_wrapI (by decide) hv, and_clear_byteCountMask hn]
  simp

end Verif
