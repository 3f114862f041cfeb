import Verif.Spec.RoundTrip
import Verif.Lemmas.Buf
namespace Verif

theorem Reads.readsBack {α} {rd : Rd α} {bs v} (h : Reads rd bs v) : ReadsBack rd bs v := by
  intro pre post r hp hc hs
  have := h r hs (by rw [hp, hc]; simp) (by
    simp only [RBuffer.rest, hp, hc]
    simp [List.append_assoc])
  rw [this]; simp [RBuffer.adv, hc]

theorem ReadsBack.reads {α} {rd : Rd α} {bs v} (h : ReadsBack rd bs v) : Reads rd bs v := by
  intro r hs hc hp
  obtain ⟨t, ht⟩ := hp
  have := h (r.p.take r.c) t r (by rw [List.append_assoc, ht, RBuffer.rest, List.take_append_drop])
    (by simp [hc]) hs
  rw [this]; simp [RBuffer.adv, hc]

theorem roundTripAs_of {α} {wr : Wr Nat} {rd : Rd α} {bs v} (hw : Writes wr bs bs.length)
    (hr : Reads rd bs v) : RoundTripAs wr rd v bs :=
  ⟨fun w h => ⟨w.app bs, hw w h, rfl⟩, hr.readsBack⟩

theorem roundTrip_of {α} {wr : Wr Nat} {rd : Rd α} {bs v} (hw : Writes wr bs bs.length)
    (hr : Reads rd bs v) : RoundTrip wr rd v :=
  ⟨bs, fun w h => ⟨w.app bs, hw w h, rfl⟩, hr.readsBack⟩

theorem roundTripNE_of {α} {wr : Wr Nat} {rd : Rd α} {bs v} (hw : WritesNE wr bs bs.length)
    (hr : Reads rd bs v) : RoundTripNE wr rd v :=
  ⟨bs, fun w h hne => ⟨w.app bs, hw w h hne, rfl⟩, hr.readsBack⟩

end Verif
