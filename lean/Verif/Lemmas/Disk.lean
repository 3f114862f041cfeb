import Verif.Model.Disk
namespace Verif

/-- The bytes `data` are in the file at position `pos`. -/
def Stored (img : List Byte) (pos : Nat) (data : List Byte) : Prop := data <+: img.drop pos

theorem writeAt_nil (img : List Byte) (p : Nat) : writeAt img ⟨p, []⟩ = img := by simp [writeAt]

theorem writeAt_length (img : List Byte) (w : DiskWrite) :
    (writeAt img w).length =
      if w.data = [] then img.length else max img.length (w.pos + w.data.length) := by
  unfold writeAt
  split
  · rfl
  · simp only [List.length_append, List.length_take, List.length_replicate, List.length_drop]
    omega

theorem writeAt_length_ge (img : List Byte) (w : DiskWrite) :
    img.length ≤ (writeAt img w).length := by
  rw [writeAt_length]; split <;> omega

/-- Byte by byte. -/
theorem writeAt_get (img : List Byte) (w : DiskWrite) (i : Nat) (hi : i < img.length ∨ w.data ≠ []) :
    (writeAt img w)[i]? =
      if i < w.pos then (if i < img.length then img[i]? else some 0)
      else if i < w.pos + w.data.length then w.data[i - w.pos]?
      else img[i]? := by
  unfold writeAt
  split
  · next h =>
    have hlt : i < img.length := by
      rcases hi with h' | h'
      · exact h'
      · exact absurd h h'
    rw [h, if_pos hlt]
    simp only [List.length_nil, Nat.add_zero]
    by_cases h1 : i < w.pos
    · rw [if_pos h1]
    · rw [if_neg h1, if_neg h1]
  · rw [List.append_assoc, List.append_assoc]
    by_cases h1 : i < w.pos
    · rw [if_pos h1]
      by_cases h2 : i < img.length
      · rw [if_pos h2, List.getElem?_append_left (by simp; omega), List.getElem?_take, if_pos h1]
      · rw [if_neg h2, List.getElem?_append_right (by simp; omega),
          List.getElem?_append_left (by simp; omega), List.getElem?_replicate, if_pos (by simp; omega)]
    · rw [if_neg h1, List.getElem?_append_right (by simp; omega),
        List.getElem?_append_right (by simp; omega)]
      simp only [List.length_take, List.length_replicate]
      rw [show i - min w.pos img.length - (w.pos - img.length) = i - w.pos by omega]
      by_cases h3 : i < w.pos + w.data.length
      · rw [if_pos h3, List.getElem?_append_left (by omega)]
      · rw [if_neg h3, List.getElem?_append_right (by omega), List.getElem?_drop]
        congr 1; omega

theorem stored_iff {img : List Byte} {pos : Nat} {data : List Byte} :
    Stored img pos data ↔ ∀ i, i < data.length → img[pos + i]? = data[i]? := by
  unfold Stored
  rw [List.prefix_iff_getElem?]
  constructor
  · intro h i hi
    have := h i hi
    rw [List.getElem?_drop] at this
    rw [this, List.getElem?_eq_getElem hi]
  · intro h i hi
    rw [List.getElem?_drop, h i hi, List.getElem?_eq_getElem hi]

theorem Stored.nil (img : List Byte) (pos : Nat) : Stored img pos [] := List.nil_prefix

theorem Stored.le {img : List Byte} {pos : Nat} {data : List Byte} (h : Stored img pos data)
    (hd : data ≠ []) : pos + data.length ≤ img.length := by
  have h1 := h.length_le
  have : data.length ≠ 0 := by simpa using hd
  simp only [List.length_drop] at h1
  omega

/-- Two ranges that do not meet. -/
def Apart (p n q m : Nat) : Prop := p + n ≤ q ∨ q + m ≤ p

theorem Stored.write {img : List Byte} {pos : Nat} {data : List Byte} (h : Stored img pos data)
    {w : DiskWrite} (hw : Apart pos data.length w.pos w.data.length) :
    Stored (writeAt img w) pos data := by
  rw [stored_iff] at *
  intro i hi
  have h1 := h i hi
  have hlt : pos + i < img.length := by
    rcases Nat.lt_or_ge (pos + i) img.length with hc | hc
    · exact hc
    · rw [List.getElem?_eq_none hc, List.getElem?_eq_getElem hi] at h1
      simp at h1
  rw [writeAt_get _ _ _ (Or.inl hlt)]
  rcases hw with hw | hw
  · rw [if_pos (by omega), if_pos hlt, h1]
  · rw [if_neg (by omega), if_neg (by omega), h1]

theorem Stored.written (img : List Byte) (w : DiskWrite) : Stored (writeAt img w) w.pos w.data := by
  rw [stored_iff]
  intro i hi
  have hne : w.data ≠ [] := by rintro h; simp [h] at hi
  rw [writeAt_get _ _ _ (Or.inr hne), if_neg (by omega), if_pos (by omega)]
  congr 1; omega

theorem Stored.append {img : List Byte} {pos : Nat} {a b : List Byte} :
    Stored img pos (a ++ b) ↔ Stored img pos a ∧ Stored img (pos + a.length) b := by
  simp only [stored_iff]
  constructor
  · intro h
    refine ⟨fun i hi => ?_, fun i hi => ?_⟩
    · rw [h i (by simp; omega), List.getElem?_append_left hi]
    · rw [Nat.add_assoc, h (a.length + i) (by simp; omega), List.getElem?_append_right (by omega)]
      congr 1; omega
  · rintro ⟨h1, h2⟩ i hi
    by_cases hl : i < a.length
    · rw [h1 i hl, List.getElem?_append_left hl]
    · rw [List.length_append] at hi
      have := h2 (i - a.length) (by omega)
      rw [show pos + a.length + (i - a.length) = pos + i by omega] at this
      rw [this, List.getElem?_append_right (by omega)]

theorem Stored.sub {img : List Byte} {pos : Nat} {a b c : List Byte}
    (h : Stored img pos (a ++ b ++ c)) : Stored img (pos + a.length) b := by
  rw [List.append_assoc, Stored.append] at h
  exact (Stored.append.1 h.2).1

theorem image_append (a b : List DiskWrite) : image (a ++ b) = b.foldl writeAt (image a) := by
  simp [image, List.foldl_append]

theorem Stored.foldl {ws : List DiskWrite} {img : List Byte} {pos : Nat} {data : List Byte}
    (h : Stored img pos data) (hw : ∀ w ∈ ws, Apart pos data.length w.pos w.data.length) :
    Stored (ws.foldl writeAt img) pos data := by
  induction ws generalizing img with
  | nil => exact h
  | cons w ws ih =>
    exact ih (h.write (hw w (by simp))) fun v hv => hw v (by simp [hv])

/-- A write is still there if no later write meets it. -/
theorem Stored.image {a b : List DiskWrite} {w : DiskWrite}
    (hb : ∀ v ∈ b, Apart w.pos w.data.length v.pos v.data.length) :
    Stored (image (a ++ w :: b)) w.pos w.data := by
  rw [image_append, List.foldl_cons]
  exact (Stored.written _ w).foldl hb

theorem readAt_stored {img : List Byte} {pos len : Int} {data : List Byte} (hp : 0 ≤ pos)
    (hl : len = data.length) (h : Stored img pos.toNat data) : readAt img pos len = .ok data := by
  subst hl
  unfold readAt
  rw [if_neg (by omega), if_neg (by omega)]
  by_cases hd : data = []
  · subst hd; simp
  · have := h.le hd
    rw [if_pos (by simpa using this)]
    congr 1
    obtain ⟨t, ht⟩ := h
    rw [← ht]; simp

theorem foldl_length_le (ws : List DiskWrite) (img : List Byte) (n : Nat) (h0 : img.length ≤ n)
    (h : ∀ w ∈ ws, w.pos + w.data.length ≤ n) : (ws.foldl writeAt img).length ≤ n := by
  induction ws generalizing img with
  | nil => exact h0
  | cons w ws ih =>
    refine ih _ ?_ fun v hv => h v (by simp [hv])
    have h2 := h w (by simp)
    rw [writeAt_length]; split <;> omega

theorem image_length_le (ws : List DiskWrite) (n : Nat) (h : ∀ w ∈ ws, w.pos + w.data.length ≤ n) :
    (image ws).length ≤ n := foldl_length_le ws [] n (by simp) h

theorem foldl_length_ge (ws : List DiskWrite) (img : List Byte) :
    img.length ≤ (ws.foldl writeAt img).length := by
  induction ws generalizing img with
  | nil => exact Nat.le_refl _
  | cons w ws ih => exact Nat.le_trans (writeAt_length_ge img w) (ih _)

end Verif
