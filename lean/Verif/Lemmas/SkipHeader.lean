import Verif.Lemmas.Cursor
import Verif.Lemmas.Values
/-
Reading an element behind an optional header.
-/
namespace Verif

/-- `m` does not look at the declared header size. -/
def SkipFree {α} (m : Rd α) : Prop :=
  ∀ r s, m { r with skip := s } =
    match m r with
    | .ok (a, r') => .ok (a, { r' with skip := s })
    | .error e => .error e

theorem SkipFree.pure {α} (a : α) : SkipFree (Pure.pure a : Rd α) := fun _ _ => rfl

theorem SkipFree.bind {α β} {m : Rd α} {f : α → Rd β} (h1 : SkipFree m) (h2 : ∀ a, SkipFree (f a)) :
    SkipFree (m >>= f) := by
  intro r s
  cases hm : m r with
  | error e =>
    have h := h1 r s
    rw [hm] at h
    rw [Rd.bind_err h, Rd.bind_err hm]
  | ok x =>
    obtain ⟨a, r'⟩ := x
    have h := h1 r s
    rw [hm] at h
    rw [Rd.bind_ok h, Rd.bind_ok hm, h2 a r' s]

theorem SkipFree.ite {α} {c : Prop} [Decidable c] {m n : Rd α} (h1 : SkipFree m) (h2 : SkipFree n) :
    SkipFree (if c then m else n) := by split <;> assumption

theorem SkipFree.take (n : Nat) : SkipFree (Rd.take n) := by
  intro r s
  unfold Rd.take
  dsimp only
  split <;> rfl

theorem SkipFree.uint (k : Nat) : SkipFree (Rd.uint k) := (SkipFree.take k).bind fun _ => .pure _

theorem SkipFree.sint (k : Nat) : SkipFree (Rd.sint k) := (SkipFree.take k).bind fun _ => .pure _

theorem SkipFree.string : SkipFree Rd.string := by
  have h : Rd.string = (Rd.u8 >>= fun b => (if b = 255 then Rd.u32 else Pure.pure b) >>= fun n =>
      if n = 0 then Pure.pure [] else Rd.take n >>= fun buf => if utf8 buf then Pure.pure buf else Pure.pure []) := by
    funext r
    unfold Rd.string
    cases h : Rd.u8 r with
    | error e => rw [Rd.bind_err h, Rd.bind_err h]
    | ok x =>
      rw [Rd.bind_ok h, Rd.bind_ok h]
      dsimp only
      split <;> rfl
  rw [h]
  exact (SkipFree.uint 1).bind fun b => (SkipFree.ite (.uint 4) (.pure _)).bind fun n =>
    .ite (.pure _) ((SkipFree.take n).bind fun _ => .ite (.pure _) (.pure _))

/-- A read that does not look at the declared header size, on a buffer that has one. -/
theorem Reads.skipped {α} {m : Rd α} {bs a} (h : Reads m bs a) (hf : SkipFree m) {r : RBuffer}
    (hc : r.c ≤ r.p.length) (hp : bs <+: r.rest) : m r = .ok (a, r.adv bs.length) := by
  have h1 := h { r with skip := none } rfl hc hp
  have h2 := hf { r with skip := none } r.skip
  rw [h1] at h2
  exact h2

theorem Reads.vecBody {α} {m : Rd α} {enc : α → List Byte} {l : List α} (hl : l.length < 2 ^ 31)
    (h : ∀ a ∈ l, Reads m (enc a) a) {r : RBuffer} (hc : r.c ≤ r.p.length)
    (hp : encVec enc l <+: r.rest) :
    (do
      let size ← Rd.i32
      if size < 0 then Rd.panic
      else
        Rd.setSkip none
        Rd.times size.toNat m : Rd (List α)) r =
      .ok (l, { r.adv (encVec enc l).length with skip := none }) := by
  have hp1 := RBuffer.prefix_left (b1 := beBytes 4 l.length) hp
  rw [Rd.bind_ok ((Reads.i32_ofNat hl).skipped (SkipFree.sint 4) hc hp1)]
  rw [if_neg (by omega)]
  rw [Rd.bind_ok (a := ()) (r' := { r.adv (beBytes 4 l.length).length with skip := none }) rfl]
  have hp2 := RBuffer.prefix_adv (b1 := beBytes 4 l.length) hp
  have hle := RBuffer.adv_le hc hp1
  have := Reads.times h { r.adv (beBytes 4 l.length).length with skip := none } rfl hle hp2
  rw [show ((l.length : Int)).toNat = l.length from rfl, this]
  simp [RBuffer.adv, encVec, Nat.add_assoc]

/-- A header in front. -/
theorem Rd.doSkipHeader_present {r : RBuffer} {s : Nat} {hdr bs : List Byte} (hs : r.skip = some (s : Int))
    (h1 : hdr.length = s) (h2 : 1 < s) (h3 : hdr.head? = some 64) (hc : r.c ≤ r.p.length)
    (hp : hdr ++ bs <+: r.rest) : Rd.doSkipHeader r = .ok ((), r.adv s) := by
  have hlen := (RBuffer.prefix_left hp).length_le
  simp only [RBuffer.rest, List.length_drop, h1] at hlen
  unfold Rd.doSkipHeader
  rw [hs]
  dsimp only
  rw [if_neg (by omega), if_pos (by omega),
    Rd.peek (by omega) (fun b => if b ≠ 64 then Pure.pure () else Rd.skipBy s)]
  have hb : (r.p[r.c]'(by omega)) = 64 := by
    obtain ⟨t, ht⟩ := RBuffer.prefix_left hp
    cases hdr with
    | nil => simp at h3
    | cons b hdr =>
      simp only [List.head?_cons, Option.some.injEq] at h3
      subst h3
      simp only [RBuffer.rest] at ht
      rw [List.drop_eq_getElem_cons (by omega)] at ht
      simp only [List.cons_append, List.cons.injEq] at ht
      exact ht.1.symm
  rw [hb, if_neg (by decide), Rd.skipBy_eq (by omega)]
  rfl

/-- No header in front. -/
theorem Rd.doSkipHeader_absent {r : RBuffer} {s : Int} {bs : List Byte} (hs : r.skip = some s)
    (h2 : s = 0 ∨ 1 < s) (h3 : bs.head? ≠ some 64) (hb : bs ≠ []) (hc : r.c ≤ r.p.length)
    (hp : bs <+: r.rest) : Rd.doSkipHeader r = .ok ((), r) := by
  have hle := RBuffer.prefix_le hb hp
  have hpos : 0 < bs.length := List.length_pos_iff.2 hb
  unfold Rd.doSkipHeader
  rw [hs]
  dsimp only
  by_cases hl : (r.p.length : Int) - r.c < s
  · rw [if_pos hl]
  · rw [if_neg hl]
    rcases h2 with h2 | h2
    · subst h2
      rw [if_neg (by omega), Rd.skipBy_eq (by decide)]
      rfl
    · rw [if_pos (by omega),
        Rd.peek (by omega) (fun b => if b ≠ 64 then Pure.pure () else Rd.skipBy s)]
      have hb : (r.p[r.c]'(by omega)) ≠ 64 := by
        obtain ⟨t, ht⟩ := hp
        cases bs with
        | nil => exact absurd rfl hb
        | cons b bs =>
          simp only [RBuffer.rest] at ht
          rw [List.drop_eq_getElem_cons (by omega)] at ht
          simp only [List.cons_append, List.cons.injEq] at ht
          rw [← ht.1]
          simpa using h3
      rw [if_pos]
      · rfl
      · intro h
        apply hb
        exact UInt8.toNat_inj.1 h

end Verif
