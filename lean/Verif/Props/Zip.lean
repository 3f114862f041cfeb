import Verif.Lemmas.Zip
import Verif.Model.Values
/-
C40 (sub-branches side by side).
-/
namespace Verif

/-- C40, when no basket is empty: the entries of a branch with sub-branches are read, in order, each from
the bytes of one cell of every sub-branch, whatever the baskets the cells come from.  Missing: an empty
basket aborts (`C40_empty_basket_false`) and a basket kept in the record of a sub-branch is cut into cells of
one byte (`C40_embedded_false`). -/
theorem C40_rows_partial {α} {r : Reader} {b : Branch} {func : Rd α} {subs : List (List Chunk)} {m : Nat}
    (hb : b.branches ≠ [])
    (hsub : b.branches.map (fun s => s.data.chunks r) = subs.map fun cs => .ok (cs.map .ok))
    (hf : ∀ cs ∈ subs, ∀ c ∈ cs, c.Fixed) (hm : ∀ cs ∈ subs, (cs.flatMap Chunk.cells).length = m) :
    b.getBasket r func = collect ((List.range m).map fun i => (readWith func (rowOf subs i)).unwrap) := by
  have hs : subs ≠ [] := by
    intro e
    rw [e] at hsub
    exact hb (List.map_eq_nil_iff.1 hsub)
  have hcol : ∀ l : List (List Chunk), collect (l.map fun cs => (.ok (cs.map .ok) : Res (List (Res Chunk)))) =
      .ok (l.map (List.map .ok)) := by
    intro l
    induction l with
    | nil => rfl
    | cons cs l ih =>
      rw [List.map_cons]
      unfold collect
      rw [ih]
      rfl
  have h1 : subChunks r b.branches = .ok (subs.map (List.map .ok)) := by
    unfold subChunks
    rw [hsub, hcol]
  have h2 := zipAll_rows hf hm hs (zipCalls_gt hm hs)
  unfold Branch.getBasket
  split
  · next h => exact absurd h hb
  · rw [h1]
    change (zipAll _ [] _ >>= _) = _
    rw [h2]
    change collect _ = _
    rw [List.map_map]
    rfl

/-- The baskets do not matter: the same cells cut in another way give the same entries. -/
theorem C40_cuts_partial {α} {r r' : Reader} {b b' : Branch} {func : Rd α} {subs subs' : List (List Chunk)} {m : Nat}
    (hb : b.branches ≠ []) (hb' : b'.branches ≠ [])
    (hsub : b.branches.map (fun s => s.data.chunks r) = subs.map fun cs => .ok (cs.map .ok))
    (hsub' : b'.branches.map (fun s => s.data.chunks r') = subs'.map fun cs => .ok (cs.map .ok))
    (hf : ∀ cs ∈ subs, ∀ c ∈ cs, c.Fixed) (hf' : ∀ cs ∈ subs', ∀ c ∈ cs, c.Fixed)
    (hm : ∀ cs ∈ subs, (cs.flatMap Chunk.cells).length = m)
    (heq : subs.map (fun cs => cs.flatMap Chunk.cells) = subs'.map fun cs => cs.flatMap Chunk.cells) :
    b.getBasket r func = b'.getBasket r' func := by
  have hm' : ∀ cs ∈ subs', (cs.flatMap Chunk.cells).length = m := by
    intro cs hcs
    have : cs.flatMap Chunk.cells ∈ subs.map fun cs => cs.flatMap Chunk.cells := by
      rw [heq]; exact List.mem_map_of_mem hcs
    obtain ⟨c, hc, he⟩ := List.mem_map.1 this
    rw [← he]
    exact hm c hc
  rw [C40_rows_partial hb hsub hf hm, C40_rows_partial hb' hsub' hf' hm']
  congr 2
  funext i
  have : rowOf subs i = rowOf subs' i := by
    have h : ∀ l : List (List Chunk), rowOf l i =
        (l.map fun cs => cs.flatMap Chunk.cells).flatMap fun x => (x[i]?).getD [] := by
      intro l
      rw [List.flatMap_map]
      rfl
    rw [h, h, heq]
  rw [this]

/-- A sub-branch whose only basket, kept in its record, has `n` entries and the bytes `buf`. -/
def heldBranch (leaf : List Leaf) (n : Int) (buf : List Byte) : Branch :=
  .mk { leaves := leaf, baskets := [{ nevBuf := n, key := { buffer := buf } }] } none []

/-- A branch with these sub-branches. -/
def overBranch (bs : List Branch) : Branch := .mk {} none bs

/-- C40 is false with an empty basket: there is no entry to give, yet iterating aborts. -/
theorem C40_empty_basket_false : ∃ (b : Branch) (subs : List (List Chunk)), b.branches ≠ [] ∧
    (∀ r, b.branches.map (fun s => s.data.chunks r) = subs.map fun cs => .ok (cs.map .ok)) ∧
    (∀ cs ∈ subs, cs.flatMap Chunk.cells = []) ∧
    ∀ r, b.getBasket r (Ty.unmarshal .i32) = .error .panic :=
  ⟨overBranch [heldBranch [] 0 []], [[.regular 0 1 []]], (fun h => by cases h), fun _ => rfl,
    (fun cs h => by rw [List.mem_singleton.1 h]; rfl), fun _ => rfl⟩

/-- A leaf of 32 bit integers. -/
def leafI : Leaf := .var .I rversLeaf { etype := 4, len := 1 } 0 0

/-- C40 is false for a basket kept in the record of a sub-branch: its cells are taken to have one byte,
whatever the leaf says; the two integers 1 and 2 cannot be read. -/
theorem C40_embedded_false : ∃ b : Branch, b = overBranch [heldBranch [leafI] 2 (encI 4 1 ++ encI 4 2)] ∧
    ∀ r, b.getBasket r (Ty.unmarshal .i32) = .error .panic :=
  ⟨_, rfl, fun _ => rfl⟩

/-! Two sub-branches cut differently: cells of one byte in baskets of two and one, cells of two bytes in
baskets of one and two.  And a branch for which the chunks are known. -/

/-- The chunks of the two sub-branches. -/
def twoSubs : List (List Chunk) :=
  [[.regular 2 1 [1, 2], .regular 1 1 [3]], [.regular 1 2 [4, 5], .regular 2 2 [6, 7, 8, 9]]]

example : (∀ cs ∈ twoSubs, ∀ c ∈ cs, c.Fixed) ∧ (∀ cs ∈ twoSubs, (cs.flatMap Chunk.cells).length = 3) ∧
    (List.range 3).map (rowOf twoSubs) = [[1, 4, 5], [2, 6, 7], [3, 8, 9]] := by
  refine ⟨?_, ?_, by decide⟩
  · intro cs hcs c hc
    simp only [twoSubs, List.mem_cons, List.not_mem_nil, or_false] at hcs
    rcases hcs with rfl | rfl <;> simp only [List.mem_cons, List.not_mem_nil, or_false] at hc <;>
      rcases hc with rfl | rfl <;> simp [Chunk.Fixed]
  · intro cs hcs
    simp only [twoSubs, List.mem_cons, List.not_mem_nil, or_false] at hcs
    rcases hcs with rfl | rfl <;> rfl

set_option maxRecDepth 8000 in
example : ∃ (b : Branch) (r : Reader) (subs : List (List Chunk)), b.branches ≠ [] ∧
    b.branches.map (fun s => s.data.chunks r) = subs.map (fun cs => .ok (cs.map .ok)) ∧
    (∀ cs ∈ subs, ∀ c ∈ cs, c.Fixed) ∧ (∀ cs ∈ subs, (cs.flatMap Chunk.cells).length = 2) ∧
    b.getBasket r (Ty.unmarshal .i16) = .ok [259, 516] := by
  refine ⟨overBranch [heldBranch [] 2 [1, 2], heldBranch [] 2 [3, 4]], ⟨⟨fun _ => none, fun _ => none, fun _ => none⟩, [], []⟩,
    [[.regular 2 1 [1, 2]], [.regular 2 1 [3, 4]]], (fun h => by cases h), rfl, ?_, ?_, rfl⟩
  · intro cs hcs c hc
    simp only [List.mem_cons, List.not_mem_nil, or_false] at hcs
    rcases hcs with rfl | rfl <;> rw [List.mem_singleton.1 hc] <;> simp [Chunk.Fixed]
  · intro cs hcs
    simp only [List.mem_cons, List.not_mem_nil, or_false] at hcs
    rcases hcs with rfl | rfl <;> rfl

end Verif
