import Verif.Lemmas.Layout
import Verif.Model.Open
namespace Verif

theorem Res.ok_bind {α β} {x : Res α} {g : α → Res β} {b : β} :
    (x >>= g) = .ok b ↔ ∃ a, x = .ok a ∧ g a = .ok b := by
  rcases x with e | a
  · exact ⟨(fun h => by cases h), (fun ⟨a, h, _⟩ => by cases h)⟩
  · exact ⟨(fun h => ⟨a, rfl, h⟩), (fun ⟨a', h1, h2⟩ => by cases h1; exact h2)⟩

theorem Res.bind_ok {α β} {x : Res α} {g : α → Res β} {a : α} (h : x = .ok a) :
    (x >>= g) = g a := by rw [h]; rfl

/-- A freshly opened reading buffer. -/
abbrev RBuffer.fresh (data : List Byte) (off : Nat) : RBuffer :=
  { p := data, c := 0, offset := off, refs := [], skip := none }

theorem readWith_ok {α} {rd : Rd α} {data : List Byte} {off : Nat} {a : α}
    (h : readWith rd data off = .ok a) : ∃ r, rd (RBuffer.fresh data off) = .ok (a, r) := by
  unfold readWith at h
  generalize hx : rd _ = x at h
  rcases x with e | ⟨b, r⟩
  · cases h
  · cases h; exact ⟨r, rfl⟩

/-- Reading a value at the beginning of a buffer. -/
theorem readWith_reads {α} {rd : Rd α} {bs rest data : List Byte} {off : Nat} {a : α}
    (h : Reads rd bs a) (hd : data = bs ++ rest) : readWith rd data off = .ok a := by
  unfold readWith
  rw [h (RBuffer.fresh data off) rfl (Nat.zero_le _)
    (by simp only [RBuffer.rest, List.drop_zero]; exact ⟨rest, hd.symm⟩)]

end Verif
