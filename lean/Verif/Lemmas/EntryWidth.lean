import Verif.Lemmas.MadeStorable
/-
The length of entries.
-/
namespace Verif

theorem Ty.prim_width {t : Ty} {x} (h : t.leafKind = some x) : ∃ w, ∀ v : t.Val, (t.enc v).length = w := by
  cases t <;> first
    | exact ⟨_, fun v => beBytes_length _ _⟩
    | cases h

theorem prim_entry {t : Ty} {x} (h : t.leafKind = some x) : ∃ w, ∀ v, t.Ok v → (entryBytes t v).length = w := by
  obtain ⟨w, hw⟩ := Ty.prim_width h
  have he : ∀ v, entryBytes t v = marshalled t v := by
    cases t <;> first
      | exact fun _ => rfl
      | cases h
  exact ⟨w, fun v hok => by rw [he, marshalled_eq hok]; exact hw v⟩

theorem flatMap_width {α} {f : α → List Byte} {w : Nat} (h : ∀ a, (f a).length = w) (l : List α) :
    (l.flatMap f).length = l.length * w := by
  induction l with
  | nil => simp
  | cons a l ih =>
    rw [List.flatMap_cons, List.length_append, h, ih, List.length_cons, Nat.succ_mul]
    omega

/-- All entries of a column of numbers or arrays have the same length. -/
theorem entry_width {t : Ty} {name : Str} {l : Leaf} (hl : Leaf.new t name = .ok l) (hv : t.varies = false) :
    ∃ w, ∀ v, t.Ok v → (entryBytes t v).length = w := by
  cases t with
  | string => cases hv
  | vec e => cases hv
  | arr n e =>
    unfold Leaf.new at hl
    dsimp only at hl
    split at hl
    · cases hl
    · split at hl
      · cases hl
      · next hk =>
        obtain ⟨w, hw⟩ := Ty.prim_width hk
        refine ⟨n * w, fun v hok => ?_⟩
        show (marshalled (.arr n e) v).length = _
        rw [marshalled_eq hok]
        obtain ⟨hlen, -⟩ := hok
        show (List.flatMap e.enc (List.take n v)).length = _
        rw [flatMap_width hw, List.length_take]
        have : min n (List.length v) = n := by omega
        rw [this]
  | bool => exact prim_entry rfl
  | i8 => exact prim_entry rfl
  | i16 => exact prim_entry rfl
  | i32 => exact prim_entry rfl
  | i64 => exact prim_entry rfl
  | u8 => exact prim_entry rfl
  | u16 => exact prim_entry rfl
  | u32 => exact prim_entry rfl
  | u64 => exact prim_entry rfl
  | f32 => exact prim_entry rfl
  | f64 => exact prim_entry rfl

end Verif
