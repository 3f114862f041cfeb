import Verif.Model.WBuffer
import Verif.Model.RBuffer
/-
What "is read back as it was written" means, in terms of buffers only.
-/
namespace Verif

/-- The write buffer's counter agrees with its data; true of every buffer made by
`WBuffer::new` and kept by every write. -/
def WBuffer.Consistent (w : WBuffer) : Prop := w.c = w.p.length

/-- `out` is `w` with the bytes `bs` added at the end and nothing else changed. -/
def WBuffer.Appended (w : WBuffer) (bs : List Byte) (out : WBuffer) : Prop :=
  out = { w with p := w.p ++ bs, c := w.c + bs.length }

/-- Reading with `rd` in *any* buffer that contains `bs` between any `pre` and `post`, with the
cursor at the start of `bs`, gives `v` and leaves the cursor right after `bs`. -/
def ReadsBack {α} (rd : Rd α) (bs : List Byte) (v : α) : Prop :=
  ∀ (pre post : List Byte) (r : RBuffer), r.p = pre ++ bs ++ post → r.c = pre.length →
    r.skip = none → rd r = .ok (v, { r with c := pre.length + bs.length })

/-- Writing succeeds in any buffer, appends `bs`, reports their number, and those bytes are read
back as `v`. -/
def RoundTripAs {α} (wr : Wr Nat) (rd : Rd α) (v : α) (bs : List Byte) : Prop :=
  (∀ w : WBuffer, w.Consistent → ∃ w', wr w = .ok (bs.length, w') ∧ w.Appended bs w') ∧
  ReadsBack rd bs v

/-- Writing then reading gives `v` back. -/
def RoundTrip {α} (wr : Wr Nat) (rd : Rd α) (v : α) : Prop := ∃ bs, RoundTripAs wr rd v bs

/-- The same for writers that look at the length of the buffer and abort when it is empty. -/
def RoundTripNE {α} (wr : Wr Nat) (rd : Rd α) (v : α) : Prop :=
  ∃ bs : List Byte,
    (∀ w : WBuffer, w.Consistent → w.p ≠ [] →
      ∃ w', wr w = .ok (bs.length, w') ∧ w.Appended bs w') ∧
    ReadsBack rd bs v

end Verif
