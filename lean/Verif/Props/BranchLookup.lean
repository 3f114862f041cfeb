import Verif.Model.BranchLookup
/-
C26: the recursive listing of a tree and the lookup by name.
-/
namespace Verif

/-- `b` is one of the branches `bs`, or a sub-branch of one of them, at any depth. -/
inductive Under : List Branch → Branch → Prop
  | here {bs b} : b ∈ bs → Under bs b
  | deeper {bs p b} : p ∈ bs → Under p.branches b → Under bs b

theorem Under.cons {b : Branch} {bs x} (h : Under bs x) : Under (b :: bs) x := by
  cases h with
  | here h => exact .here (by simp [h])
  | deeper h1 h2 => exact .deeper (List.mem_cons_of_mem _ h1) h2

mutual
theorem Branch.mem_branchesR : (b : Branch) → (x : Branch) → (x ∈ b.branchesR ↔ Under b.branches x)
  | .mk _ _ bs, x => mem_branchesR bs x
theorem mem_branchesR : (bs : List Branch) → (x : Branch) → (x ∈ branchesR bs ↔ Under bs x)
  | [], x => by
    constructor
    · intro h; cases h
    · intro h
      cases h with
      | here h => cases h
      | deeper h _ => cases h
  | b :: bs, x => by
    have h1 := Branch.mem_branchesR b x
    have h2 := mem_branchesR bs x
    simp only [branchesR, List.cons_append, List.mem_cons, List.mem_append]
    constructor
    · rintro (rfl | h | h)
      · exact .here (by simp)
      · exact .deeper (by simp) (h1.1 h)
      · exact (h2.1 h).cons
    · intro h
      cases h with
      | here h =>
        rcases List.mem_cons.1 h with rfl | h
        · exact .inl rfl
        · exact .inr (.inr (h2.2 (.here h)))
      | deeper hp hu =>
        rcases List.mem_cons.1 hp with rfl | hp
        · exact .inr (.inl (h1.2 hu))
        · exact .inr (.inr (h2.2 (.deeper hp hu)))
end

/-- C26, the listing: it contains the branches of the tree and all their sub-branches, nothing
else. -/
theorem C26_listing (bs : List Branch) (b : Branch) : b ∈ branchesR bs ↔ Under bs b :=
  mem_branchesR bs b

mutual
theorem Branch.lookup_eq : (b : Branch) → (name : Str) →
    b.lookup name = b.branchesR.find? (fun x => x.name = name)
  | .mk _ _ bs, name => lookupBranch_eq bs name
theorem lookupBranch_eq : (bs : List Branch) → (name : Str) →
    lookupBranch bs name = (branchesR bs).find? (fun x => x.name = name)
  | [], _ => rfl
  | b :: bs, name => by
    have h1 := Branch.lookup_eq b name
    have h2 := lookupBranch_eq bs name
    simp only [lookupBranch, branchesR, List.cons_append, List.find?_cons, List.find?_append]
    by_cases hb : b.name = name
    · simp [hb]
    · simp only [hb, if_false, decide_false, h1, h2]
      cases List.find? (fun x => decide (x.name = name)) b.branchesR <;> rfl
end

/-- C26, which branch: the lookup returns the first branch of the listing with that name. -/
theorem C26_first (bs : List Branch) (name : Str) (b : Branch) :
    lookupBranch bs name = some b ↔
      b.name = name ∧ ∃ before after, branchesR bs = before ++ b :: after ∧
        ∀ x ∈ before, x.name ≠ name := by
  rw [lookupBranch_eq, List.find?_eq_some_iff_append]
  simp

/-- C26, whether: the lookup returns nothing exactly when no branch of the tree, at any depth, has
that name. -/
theorem C26_none (bs : List Branch) (name : Str) :
    lookupBranch bs name = none ↔ ∀ b, Under bs b → b.name ≠ name := by
  rw [lookupBranch_eq, List.find?_eq_none]
  simp [C26_listing]

/-- A branch of the given name, for the examples. -/
private def nb (n : Str) (sub : List Branch) : Branch := .mk { named := { name := n } } none sub

/-- A tree where the name occurs as a sub-branch before it occurs at the top: the lookup returns the
sub-branch. -/
example : lookupBranch [nb (b! "a") [nb (b! "b") [nb (b! "x") []], nb (b! "c") []], nb (b! "x") [nb (b! "d") []]]
    (b! "x") = some (nb (b! "x") []) := rfl

example : Under [nb (b! "a") [nb (b! "b") []]] (nb (b! "b") []) :=
  .deeper (List.mem_singleton.2 rfl) (.here (List.mem_singleton.2 rfl))

end Verif
