import Verif.Props.TreeSession
/-
C58: the sizes that a tree and its branches announce.
-/
namespace Verif

section
variable {env : Env} {path tn : Str} {ids : Nat} {before after : List Op} {cb : Nat} {cols : List Column}
  {places : Places} {f0 f1 f2 f f' : FileW}

/-- C58, branches: after the file is opened again, both sizes of every branch are the sum of the sizes of its
records in the file (where C24 finds them), which is more than its entries take. -/
theorem C58_branches (hw : TreeWritten env path ids before after tn cb cols places f0 f1 f2 f f')
    (hh : TreeHolds env path before after tn cols places f0 f2 f') (dec : Decoders) (fuel : Nat)
    (hfuel : 3 ≤ fuel) :
    ∃ (r : FileR) (td : TreeData) (bs : List Branch), openFile dec fuel (image f'.trace) = .ok r ∧
      r.getTree dec fuel tn = .ok (td, bs, none) ∧ bs.length = cols.length ∧
      ∀ (i : Nat) (c : Column) (b : Branch), cols[i]? = some c → bs[i]? = some b →
        b.data.totBytes = b.data.basketBytes.sum ∧ b.data.zipBytes = b.data.basketBytes.sum ∧
        (c.bytes : Int) < b.data.totBytes := by
  obtain ⟨r, td, bs, h1, h2, -, h5, h⟩ := tree_reopened_sizes hw hh dec fuel hfuel
  exact ⟨r, td, bs, h1, h2, h5, fun i c b hc hb => (h i c b hc hb).1⟩

/-- C58, the tree: the size of the tree before compression is that of the entries of all columns.  Missing:
the size after compression and the records around the entries, see `C58_false`. -/
theorem C58_tree_partial (hw : TreeWritten env path ids before after tn cb cols places f0 f1 f2 f f')
    (hh : TreeHolds env path before after tn cols places f0 f2 f') (dec : Decoders) (fuel : Nat)
    (hfuel : 3 ≤ fuel) :
    ∃ (r : FileR) (td : TreeData) (bs : List Branch), openFile dec fuel (image f'.trace) = .ok r ∧
      r.getTree dec fuel tn = .ok (td, bs, none) ∧
      td.totBytes = ((cols.map fun c => (c.vals.map fun v => (entryBytes c.ty v).length).sum).sum : Nat) := by
  obtain ⟨r, td, bs, h1, h2, ⟨-, -, h3, -⟩, -⟩ := tree_reopened_sizes hw hh dec fuel hfuel
  exact ⟨r, td, bs, h1, h2, h3⟩

theorem sum_lt_of_each {bs : List Branch} {cols : List Column} {g : Branch → Int} (hne : cols ≠ [])
    (hl : bs.length = cols.length)
    (h : ∀ (i : Nat) (c : Column) (b : Branch), cols[i]? = some c → bs[i]? = some b → (c.bytes : Int) < g b) :
    (((cols.map Column.bytes).sum : Nat) : Int) < (bs.map g).sum := by
  have hle : ∀ (cols : List Column) (bs : List Branch), bs.length = cols.length →
      (∀ (i : Nat) (c : Column) (b : Branch), cols[i]? = some c → bs[i]? = some b → (c.bytes : Int) < g b) →
      (((cols.map Column.bytes).sum : Nat) : Int) + cols.length ≤ (bs.map g).sum := by
    intro cols
    induction cols with
    | nil => intro bs hl _; cases List.length_eq_zero_iff.1 hl; exact Int.le_refl _
    | cons c cols ih =>
      intro bs hl h
      cases bs with
      | nil => cases hl
      | cons b bs =>
        have h0 := h 0 c b rfl rfl
        have h1 := ih bs (by simpa using hl) fun i c b hc hb => h (i + 1) c b hc hb
        simp only [List.map_cons, List.sum_cons, List.length_cons]
        omega
  have := hle cols bs hl h
  have : 0 < cols.length := List.length_pos_iff.2 hne
  omega

/-- C58 fails for the tree: of every tree with columns, the size after compression is announced to be zero,
which its branches contradict, and the size before compression is less than that of its branches. -/
theorem C58_false (hw : TreeWritten env path ids before after tn cb cols places f0 f1 f2 f f')
    (hh : TreeHolds env path before after tn cols places f0 f2 f') (hne : cols ≠ []) (dec : Decoders) (fuel : Nat)
    (hfuel : 3 ≤ fuel) :
    ∃ (r : FileR) (td : TreeData) (bs : List Branch), openFile dec fuel (image f'.trace) = .ok r ∧
      r.getTree dec fuel tn = .ok (td, bs, none) ∧ td.zipBytes = 0 ∧
      0 < (bs.map fun b => b.data.zipBytes).sum ∧ td.totBytes < (bs.map fun b => b.data.totBytes).sum := by
  obtain ⟨r, td, bs, h1, h2, ⟨-, -, h3, h4⟩, h5, h⟩ := tree_reopened_sizes hw hh dec fuel hfuel
  have ht := sum_lt_of_each (g := fun b => b.data.totBytes) hne h5 fun i c b hc hb => (h i c b hc hb).1.2.2
  have hz := sum_lt_of_each (g := fun b => b.data.zipBytes) hne h5 fun i c b hc hb => by
    obtain ⟨⟨e1, e2, e3⟩, -⟩ := h i c b hc hb
    rw [e1] at e3
    rw [e2]
    exact e3
  refine ⟨r, td, bs, h1, h2, h4, ?_, by rw [h3]; exact ht⟩
  omega

end

/-- The small tree: four numbers of 4 bytes, two strings of 3 and 1 bytes, a vector of 26 bytes. -/
example (dec : Decoders) : ∃ (r : FileR) (td : TreeData) (bs : List Branch),
    openFile dec 3 (image demoTreeClosed.trace) = .ok r ∧ r.getTree dec 3 (b! "t") = .ok (td, bs, none) ∧
    td.totBytes = 46 := by
  obtain ⟨r, td, bs, h1, h2, h3⟩ := C58_tree_partial demo_session_written demo_session_holds dec 3 (Nat.le_refl _)
  exact ⟨r, td, bs, h1, h2, h3.trans (by decide +kernel)⟩

example (dec : Decoders) : ∃ (r : FileR) (td : TreeData) (bs : List Branch),
    openFile dec 3 (image demoTreeClosed.trace) = .ok r ∧ r.getTree dec 3 (b! "t") = .ok (td, bs, none) ∧
    td.zipBytes = 0 ∧ 0 < (bs.map fun b => b.data.zipBytes).sum := by
  obtain ⟨r, td, bs, h1, h2, h3, h4, -⟩ := C58_false demo_session_written demo_session_holds (by decide) dec 3 (Nat.le_refl _)
  exact ⟨r, td, bs, h1, h2, h3, h4⟩

end Verif
