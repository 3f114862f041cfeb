import Verif.Model.Open
import Verif.Lemmas.Bytes
import Verif.Spec.Ranges

/-! # The payload of a key: without the overflow checks, where they cannot fail -/

namespace Verif

theorem asU64_small {x : Int} (h0 : 0 ≤ x) (h : x < 2 ^ 63) : asU64 x = x.toNat := by
  unfold asU64 wrapI
  rw [show ((256 ^ 8 : Nat) : Int) = 2 ^ 64 from rfl, Int.emod_eq_of_lt h0 (by omega)]

theorem asU64_neg {x : Int} (h0 : x < 0) (h : -2 ^ 63 ≤ x) : asU64 x = (x + 2 ^ 64).toNat := by
  unfold asU64 wrapI
  rw [show ((256 ^ 8 : Nat) : Int) = 2 ^ 64 from rfl, ← Int.add_emod_right, Int.emod_eq_of_lt (by omega) (by omega)]

theorem sumU64_of {a b : Int} (a0 : 0 ≤ a) (a1 : a < 2 ^ 63) (b0 : 0 ≤ b) (b1 : b < 2 ^ 63) :
    sumU64 a b = .ok (a + b) := by
  unfold sumU64
  rw [asU64_small a0 a1, asU64_small b0 b1, if_neg (by omega)]

/-- A negative second summand aborts, unless the sum is negative as well. -/
theorem sumU64_neg {a b : Int} (a0 : 0 ≤ a) (a1 : a < 2 ^ 63) (b0 : b < 0) (b1 : -2 ^ 63 ≤ b) (h : 0 ≤ a + b) :
    sumU64 a b = .error .panic := by
  unfold sumU64
  rw [asU64_small a0 a1, asU64_neg b0 b1, if_pos (by omega)]

theorem diffU64_of {a b : Int} (b0 : 0 ≤ b) (h : b ≤ a) (a1 : a < 2 ^ 63) : diffU64 a b = .ok (a - b) := by
  unfold diffU64
  rw [asU64_small (by omega) a1, asU64_small b0 (by omega), if_neg (by omega)]

theorem Res.bind_eq_ok {α β} {x : Res α} {g : α → Res β} {b : β} : (x >>= g) = .ok b ↔ ∃ a, x = .ok a ∧ g a = .ok b := by
  cases x with
  | error e => exact ⟨(fun h => by cases h), (fun ⟨_, h, _⟩ => by cases h)⟩
  | ok a => exact ⟨(fun h => ⟨a, rfl, h⟩), (fun ⟨_, h, h'⟩ => by cases h; exact h')⟩

/-- A key that can be loaded without overflow. -/
structure Key.Sane (k : Key) : Prop where
  seek : 0 ≤ k.seekKey
  seek' : k.seekKey < 2 ^ 63
  keyLen : 0 ≤ k.keyLen
  room : k.keyLen ≤ k.nBytes
  nBytes : k.nBytes < 2 ^ 31

theorem Key.InRange.seek8 {k : Key} (h : k.InRange) : InI 8 k.seekKey := by
  obtain ⟨-, -, -, -, -, -, -, h5, -⟩ := h
  unfold InSeek at h5
  split at h5
  · exact h5
  · unfold InI at h5 ⊢
    rw [show ((256 ^ 4 : Nat) : Int) = 2 ^ 32 from rfl] at h5
    rw [show ((256 ^ 8 : Nat) : Int) = 2 ^ 64 from rfl]
    omega

theorem Key.InRange.sane {k : Key} (h : k.InRange) (h1 : 0 ≤ k.seekKey) (h2 : 0 ≤ k.keyLen) (h3 : k.keyLen ≤ k.nBytes) :
    k.Sane := by
  obtain ⟨-, h4, -, -, -, -, -, h5, -⟩ := h
  refine ⟨h1, ?_, h2, h3, ?_⟩
  · unfold InSeek InI at h5
    split at h5
    · rw [show ((256 ^ 8 : Nat) : Int) = 2 ^ 64 from rfl] at h5
      omega
    · rw [show ((256 ^ 4 : Nat) : Int) = 2 ^ 32 from rfl] at h5
      omega
  · unfold InI at h4
    rw [show ((256 ^ 4 : Nat) : Int) = 2 ^ 32 from rfl] at h4
    omega

theorem Key.Sane.diff {k : Key} (h : k.Sane) : InI 4 (k.nBytes - k.keyLen) := by
  have h1 := h.keyLen
  have h2 := h.room
  have h3 := h.nBytes
  unfold InI
  rw [show ((256 ^ 4 : Nat) : Int) = 2 ^ 32 from rfl]
  omega

theorem Key.load_sane {k : Key} (h : k.Sane) (dec : Decoders) (img : List Byte) :
    k.load dec img =
      if k.isCompressed then
        if k.objLen < 0 then .error .panic
        else
          match readAt img (k.seekKey + k.keyLen) (k.nBytes - k.keyLen) with
          | .error e => .error e
          | .ok sr => decompressPayload dec k.objLen.toNat sr
      else readAt img (k.seekKey + k.keyLen) k.objLen := by
  have h1 := h.seek
  have h2 := h.seek'
  have h3 := h.keyLen
  have h4 := h.room
  have h5 := h.nBytes
  unfold Key.load
  rw [if_neg (Classical.not_not.2 h.diff), sumU64_of h1 h2 h3 (by omega), diffU64_of h3 h4 (by omega)]
  split
  · split
    · rfl
    · show (readAt img (k.seekKey + k.keyLen) (k.nBytes - k.keyLen) >>= _) = _
      cases readAt img (k.seekKey + k.keyLen) (k.nBytes - k.keyLen) <;> rfl
  · rfl

end Verif
