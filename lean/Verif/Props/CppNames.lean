import Verif.Lemmas.CppNames
import Verif.Lemmas.TypeNames
/-
C53: columns made by C++ programs are read as the Rust types their C++ types correspond to, and as no others.
-/
namespace Verif

attribute [local irreducible] cleanTypeName

theorem asIter_named {α} {r : Reader} {top : Bool} {names : List Str} {func : Rd α} {b : Branch} {n : Str}
    (h : b.itemTypeName r top = .ok n) : b.asIter r top (some names) func =
      if n ∈ names then b.getBasket r func else .error (.err .typeMismatch) := by
  unfold Branch.asIter
  dsimp only
  rw [Res.bind_ok h]
  show (if names.contains n = true then _ else _) = _
  simp only [List.contains_iff_mem]

theorem asIter_exactly {α} {r : Reader} {top : Bool} {func : Rd α} {b : Branch} {n : Str} {t : Ty}
    (h : b.itemTypeName r top = .ok n) (hn : n ∈ t.rdClassNames) (t' : Ty) :
    b.asIter r top (some t'.rdClassNames) func =
      if t' = t then b.getBasket r func else .error (.err .typeMismatch) := by
  rw [asIter_named h]
  by_cases e : t' = t
  · rw [if_pos e, if_pos (e ▸ hn)]
  · rw [if_neg e, if_neg fun hm => e (rdClassNames_disjoint hm hn)]

theorem NamedColumn.itemType {r : Reader} {b : Branch} {s : Str} (h : NamedColumn r b s) (top : Bool) :
    b.itemTypeName r top = .ok (cleanTypeName s) := by
  obtain ⟨hf, ⟨v, tl, id, code, hl, hc, ht⟩, e, he, hst, hs⟩ := h
  unfold Branch.itemTypeName
  rw [he]
  dsimp only
  unfold BranchElem.itemTypeName
  rw [hf, hl, if_neg (by simp)]
  dsimp only [Leaf.tleaf]
  have hlt : leafTypeName code = none := by
    unfold leafTypeName
    rcases hc with hc | hc
    · rw [if_pos hc]
    · rw [if_neg (by omega)]
      dsimp only
      rw [if_neg (by omega), if_neg (by omega)]
      repeat rw [if_neg (by omega)]
  rw [leafDim_plain ht]
  simp only [bind, Except.bind, Leaf.typeName, hlt]
  rw [if_neg (by omega), if_pos hst]
  rcases hs with ⟨h1, rfl⟩ | ⟨m, h1, rfl⟩ <;> rw [h1] <;> rfl

theorem MemberColumn.itemType {r : Reader} {b : Branch} {code : Int} {title : Str} (h : MemberColumn b code title)
    {dim : Option Int} (hd : leafDim title = .ok dim) {s : Str} (hs : leafTypeName code = some s) (top : Bool) :
    b.itemTypeName r top = .ok (withDim s dim) := by
  obtain ⟨hf, he, v, tl, id, hl, rfl⟩ := h
  obtain ⟨e, he⟩ := Option.ne_none_iff_exists'.1 he
  unfold Branch.itemTypeName
  rw [he]
  dsimp only
  unfold BranchElem.itemTypeName
  rw [hf, hl, if_neg (by simp)]
  dsimp only [Leaf.tleaf]
  rw [hd]
  simp only [bind, Except.bind, Leaf.typeName, hs]
  rfl

theorem memberCodes_names : ∀ p ∈ memberCodes, ∃ s, leafTypeName p.1 = some s ∧
    leafTypeName (p.1 + 20) = some s ∧ leafTypeName (p.1 + 40) = some s ∧ p.2.rdClassNames = [s] := by
  simp only [memberCodes, List.forall_mem_cons]
  refine ⟨⟨_, rfl, ?_⟩, ⟨_, rfl, ?_⟩, ⟨_, rfl, ?_⟩, ⟨_, rfl, ?_⟩, ⟨_, rfl, ?_⟩, ⟨_, rfl, ?_⟩, ⟨_, rfl, ?_⟩,
    ⟨_, rfl, ?_⟩, ⟨_, rfl, ?_⟩, ⟨_, rfl, ?_⟩, ⟨_, rfl, ?_⟩, fun _ h => absurd h List.not_mem_nil⟩
  all_goals decide +kernel

theorem spelled_head {s : Str} {t : Ty} (hs : (s, t) ∈ cppSpellings) (ks : List Nat) :
    (nestedVec ks.length t).rdClassNames.head? = some (cleanTypeName (spelled ks s)) := by
  induction ks with
  | nil => exact (spellings_clean _ hs).2
  | cons k ks ih =>
    have e : spelled (k :: ks) s = b! "vector" ++ b! "<" ++ spelled ks s ++ b! ">" ++ List.replicate k 32 := rfl
    rw [e, clean_container _ _ _ (by decide +kernel)]
    show ((nestedVec ks.length t).rdClassNames.map _).head? = _
    rw [List.head?_map, ih]
    rfl

theorem set_name_not (c : Str) (t : Ty) : b! "set<" ++ c ++ b! ">" ∉ t.rdClassNames := by
  intro h
  have hl : (b! "set<" ++ c ++ b! ">").getLast? = some 62 := List.getLast?_concat ..
  by_cases hv : ∃ e, t = .vec e
  · obtain ⟨e, rfl⟩ := hv
    obtain ⟨x, -, hx⟩ := List.mem_map.1 h
    have := congrArg List.head? hx
    exact absurd this (by simp)
  · by_cases ha : ∃ n e, t = .arr n e
    · obtain ⟨n, e, rfl⟩ := ha
      rw [arr_name h] at hl
      cases hl
    · exact (simple_names (fun e he => hv ⟨e, he⟩) (fun n e he => ha ⟨n, e, he⟩) _ h).2.1 hl

theorem dimPattern_word {p w : Str} (h1 : (91 : Byte) ∉ p) (h2 : (91 : Byte) ∉ w)
    (h4 : ∀ c, w.head? = some c → isDigitByte c = false) (h0 : w ≠ []) :
    dimPattern (p ++ b! "[" ++ w ++ b! "]") = none := by
  have e : p ++ b! "[" ++ w ++ b! "]" = p ++ 91 :: (w ++ [93]) := by simp
  rw [e, dimPattern_skip h1]
  unfold dimPattern
  dsimp only
  obtain ⟨c, w, rfl⟩ := List.exists_cons_of_ne_nil h0
  rw [if_neg (by simp [h4 c rfl])]
  rw [dimPattern_skip h2]
  decide

theorem leafDim_word {p w : Str} (h1 : (91 : Byte) ∉ p) (h1' : (93 : Byte) ∉ p) (h2 : (91 : Byte) ∉ w)
    (h3 : (93 : Byte) ∉ w) (h4 : ∀ c, w.head? = some c → isDigitByte c = false) (h0 : w ≠ []) :
    leafDim (p ++ b! "[" ++ w ++ b! "]") = .ok (some 0) := by
  have hp := dimPattern_word h1 h2 h4 h0
  have e : p ++ b! "[" ++ w ++ b! "]" = p ++ 91 :: (w ++ [93]) := by simp
  have ht : titleHasDims (p ++ b! "[" ++ w ++ b! "]") = true := by
    rw [e]
    unfold titleHasDims
    rw [dropWhile_all (l := p)]
    · rw [List.dropWhile_cons, if_neg (by decide)]
      have ht : (w ++ [93]).takeWhile (fun b => decide (b ≠ 91 ∧ b ≠ 93)) = w := by
        rw [takeWhile_all]
        · simp
        · intro b hb
          simp only [decide_eq_true_eq]
          exact ⟨fun e => h2 (e ▸ hb), fun e => h3 (e ▸ hb)⟩
      show decide ((w ++ [93]).takeWhile (fun b => decide (b ≠ 91 ∧ b ≠ 93)) ≠ [] ∧ _) = true
      rw [ht]
      simp [h0]
    · intro b hb
      simp only [decide_eq_true_eq]
      exact ⟨fun e => h1 (e ▸ hb), fun e => h1' (e ▸ hb)⟩
  unfold leafDim
  rw [if_pos ht, hp]

theorem slice_name_not {s : Str} {t : Ty} (h : s ++ b! "[]" ∈ t.rdClassNames) : False := by
  have hl : (s ++ b! "[]").getLast? = some 93 := by simp
  by_cases hv : ∃ e, t = .vec e
  · obtain ⟨e, rfl⟩ := hv
    rw [vec_name h] at hl
    cases hl
  · by_cases ha : ∃ n e, t = .arr n e
    · obtain ⟨n, e, rfl⟩ := ha
      obtain ⟨x, -, hx⟩ := List.mem_map.1 h
      have h1 : (x ++ b! "[" ++ decimal n) ++ [93] = (s ++ [91]) ++ [93] := by simpa using hx
      have h2 := List.append_cancel_right h1
      have h3 := congrArg List.getLast? h2
      rw [List.getLast?_concat, List.getLast?_append] at h3
      cases hd : (decimal n).getLast? with
      | none => exact decimal_ne_nil n (List.getLast?_eq_none_iff.1 hd)
      | some c =>
        rw [hd] at h3
        cases h3
        exact decimal_noBracket n (List.mem_of_getLast? hd)
    · exact (simple_names (fun e he => hv ⟨e, he⟩) (fun n e he => ha ⟨n, e, he⟩) _ h).2.2 hl

/-! ### Columns to test the hypotheses on -/

/-- A column of a class of the name `s`, nothing else being known of it. -/
def demoNamed (s : Str) : Branch :=
  .mk { named := { name := b! "x" }, leaves := [.element 1 { named := { name := b! "x", title := b! "x" } } 0 (-1)] }
    (some { className := s, stype := -1 }) []

/-- A member of a class. -/
def demoMember (code : Int) (title : Str) : Branch :=
  .mk { named := { name := b! "x" }, leaves := [.element 1 { named := { name := b! "x", title := title } } 0 code] }
    (some { className := b! "C", stype := code }) []

/-- A file without class descriptions. -/
def emptyReader : Reader := ⟨⟨fun _ => none, fun _ => none, fun _ => none⟩, [], []⟩

theorem demoNamed_named (s : Str) : NamedColumn emptyReader (demoNamed s) s :=
  ⟨rfl, ⟨_, _, _, _, rfl, .inl (by decide), by decide⟩, _, rfl, Or.inr rfl, Or.inl ⟨rfl, rfl⟩⟩

theorem demoMember_member (code : Int) (title : Str) : MemberColumn (demoMember code title) code title :=
  ⟨rfl, Option.some_ne_none _, _, _, _, rfl, rfl⟩

/-! ### The property -/

/-- A column of vectors of ... of numbers or strings, in any of the listed spellings and with any spacing after
the closing brackets, is read as the Rust type it corresponds to, and as no other.  Missing: `C53_false`. -/
theorem C53_vectors_partial {r : Reader} {b : Branch} {s : Str} {t : Ty} (hs : (s, t) ∈ cppSpellings) (ks : List Nat)
    (hb : NamedColumn r b (spelled ks s)) (top : Bool) {α : Type} (func : Rd α) (t' : Ty) :
    b.asIter r top (some t'.rdClassNames) func =
      if t' = nestedVec ks.length t then b.getBasket r func else .error (.err .typeMismatch) :=
  asIter_exactly (hb.itemType top) (clean_spelled (spellings_clean _ hs).1 ks) t'

example {α : Type} (func : Rd α) :
    (demoNamed (b! "vector<vector<unsigned int> >")).asIter emptyReader true (some (Ty.vec (.vec .u32)).rdClassNames) func =
      (demoNamed (b! "vector<vector<unsigned int> >")).getBasket emptyReader func := 
  (C53_vectors_partial (s := b! "unsigned int") (t := .u32) (by decide) [0, 1] (demoNamed_named _) true func _).trans
    (if_pos rfl)

/-- A column of sets of them is read as sets of that type, and not as sets of another type, nor as any number,
string, vector or array. -/
theorem C53_sets_partial {r : Reader} {b : Branch} {s : Str} {t : Ty} (hs : (s, t) ∈ cppSpellings) (k : Nat)
    (ks : List Nat) (hb : NamedColumn r b (spelledSet k ks s)) (top : Bool) {α : Type} (func : Rd α) :
    (∀ t', b.asIter r top (some (setClassNames t')) func =
      if t' = nestedVec ks.length t then b.getBasket r func else .error (.err .typeMismatch)) ∧
    ∀ t' : Ty, b.asIter r top (some t'.rdClassNames) func = .error (.err .typeMismatch) := by
  have hn := hb.itemType top
  have e : spelledSet k ks s = b! "set" ++ b! "<" ++ spelled ks s ++ b! ">" ++ List.replicate k 32 := rfl
  rw [e, clean_container _ _ _ (by decide +kernel)] at hn
  have e2 : b! "set" ++ b! "<" = b! "set<" := rfl
  rw [e2] at hn
  have hh := spelled_head hs ks
  constructor
  · intro t'
    rw [asIter_named hn]
    by_cases ht : t' = nestedVec ks.length t
    · subst ht
      rw [if_pos rfl, if_pos]
      unfold setClassNames
      split
      · next h0 => rw [h0] at hh; cases hh
      · next c cs h0 => rw [h0] at hh; cases hh; exact List.mem_singleton.2 rfl
    · rw [if_neg ht, if_neg]
      intro hm
      unfold setClassNames at hm
      split at hm
      · cases hm
      · next c cs h0 =>
        have h1 := List.append_cancel_left (List.append_cancel_right (List.mem_singleton.1 hm))
        exact ht (rdClassNames_disjoint (s := c) (h0 ▸ List.mem_cons_self ..) (h1 ▸ List.mem_of_head? hh))
  · intro t'
    rw [asIter_named hn, if_neg (set_name_not _ _)]

example {α : Type} (func : Rd α) :
    (demoNamed (b! "set<short>")).asIter emptyReader true (some (setClassNames .i32)) func = .error (.err .typeMismatch) := 
  ((C53_sets_partial (s := b! "short") (t := .i16) (by decide) 0 [] (demoNamed_named _) true func).1 _).trans
    (if_neg (by decide))

/-- A column of a member of a class, with one of the listed codes, is read as the Rust type of that code, and as no
other: a number if the title has no brackets, an array of `n` numbers if it ends in `[n]`. -/
theorem C53_members_partial {r : Reader} {b : Branch} {code : Int} {t : Ty} (hc : (code, t) ∈ memberCodes)
    (p : Str) (h1 : (91 : Byte) ∉ p) (h2 : (93 : Byte) ∉ p) (top : Bool) {α : Type} (func : Rd α) (t' : Ty) :
    (MemberColumn b code p → b.asIter r top (some t'.rdClassNames) func =
      if t' = t then b.getBasket r func else .error (.err .typeMismatch)) ∧
    ∀ n : Nat, 0 < n → n < 2 ^ 31 → MemberColumn b (code + 20) (p ++ b! "[" ++ decimal n ++ b! "]") →
      b.asIter r top (some t'.rdClassNames) func =
        if t' = .arr n t then b.getBasket r func else .error (.err .typeMismatch) := by
  obtain ⟨s, h3, h4, -, h5⟩ := memberCodes_names _ hc
  constructor
  · intro hb
    exact asIter_exactly (hb.itemType (leafDim_plain h1) h3 top)
      (by dsimp only at h5; rw [h5]; exact List.mem_singleton.2 rfl) t'
  · intro n hn hlt hb
    refine asIter_exactly (hb.itemType (leafDim_array h1 h2 hn hlt) h4 top) ?_ t'
    unfold withDim
    dsimp only at h5 ⊢
    rw [if_pos (by omega), decimalI_nat, Ty.rdClassNames, h5]
    exact List.mem_singleton.2 rfl

example {α : Type} (func : Rd α) :
    (demoMember 25 (b! "x[3]")).asIter emptyReader false (some (Ty.arr 3 .f32).rdClassNames) func =
      (demoMember 25 (b! "x[3]")).getBasket emptyReader func := 
  ((C53_members_partial (code := 5) (t := .f32) (by decide) (b! "x") (by decide) (by decide) false func _).2 3
    (by decide) (by decide) (demoMember_member _ _)).trans (if_pos rfl)

/-- And as an array of varying size if the title ends in a word in brackets: the name of the member that holds the
size. -/
theorem C53_slices_partial {r : Reader} {b : Branch} {code : Int} {t : Ty} (hc : (code, t) ∈ memberCodes)
    (p w : Str) (h1 : (91 : Byte) ∉ p) (h2 : (93 : Byte) ∉ p) (h3 : (91 : Byte) ∉ w) (h4 : (93 : Byte) ∉ w)
    (h5 : ∀ c, w.head? = some c → isDigitByte c = false) (h0 : w ≠ [])
    (hb : MemberColumn b (code + 40) (p ++ b! "[" ++ w ++ b! "]")) (top : Bool) {α : Type} (func : Rd α) :
    b.asIter r top (some (sliceClassNames t)) func = b.getBasket r func ∧
    ∀ t' : Ty, b.asIter r top (some t'.rdClassNames) func = .error (.err .typeMismatch) := by
  obtain ⟨s, -, -, h6, h7⟩ := memberCodes_names _ hc
  dsimp only at h7
  have hn := hb.itemType (r := r) (leafDim_word h1 h2 h3 h4 h5 h0) h6 top
  have e : withDim s (some 0) = s ++ b! "[]" := rfl
  rw [e] at hn
  constructor
  · rw [asIter_named hn, if_pos]
    unfold sliceClassNames
    rw [h7]
    exact List.mem_singleton.2 rfl
  · intro t'
    rw [asIter_named hn, if_neg fun h => slice_name_not h]

example {α : Type} (func : Rd α) :
    (demoMember 45 (b! "x[n]")).asIter emptyReader false (some (sliceClassNames .f32)) func =
      (demoMember 45 (b! "x[n]")).getBasket emptyReader func :=
  (C53_slices_partial (code := 5) (t := .f32) (by decide) (b! "x") (b! "n") (by decide) (by decide) (by decide) (by decide)
    (by decide) (by decide) (demoMember_member _ _) false func).1

/-- What is missing: 8-bit numbers and the numbers of `long long`, spelled as ROOT spells them. A column of vectors
of them is refused for every Rust type. -/
theorem C53_false {r : Reader} {b : Branch} {s : Str} (hs : s ∈ cppOthers) (hb : NamedColumn r b (b! "vector<" ++ s ++ b! ">"))
    (top : Bool) {α : Type} (func : Rd α) (t : Ty) :
    b.asIter r top (some t.rdClassNames) func = .error (.err .typeMismatch) := by
  rw [asIter_named (hb.itemType top), if_neg]
  have e : b! "vector<" ++ s ++ b! ">" = b! "vector" ++ b! "<" ++ s ++ b! ">" ++ List.replicate 0 32 := by simp
  rw [e, clean_container _ _ _ (by decide +kernel)]
  have hc : ∀ s ∈ cppOthers, simpleOf (cleanTypeName s) = simpleOf [] ∧ (cleanTypeName s).getLast? ≠ some 62 ∧
      (cleanTypeName s).getLast? ≠ some 93 ∧ cleanTypeName s ∉ (simpleOf []).rdClassNames := by decide +kernel
  obtain ⟨h1, h2, h3, h4⟩ := hc s hs
  intro h
  have hl : (b! "vector" ++ b! "<" ++ cleanTypeName s ++ b! ">").getLast? = some 62 := List.getLast?_concat ..
  by_cases hv : ∃ e, t = .vec e
  · obtain ⟨e, rfl⟩ := hv
    obtain ⟨x, hx, he⟩ := List.mem_map.1 h
    have := List.append_cancel_left (List.append_cancel_right he)
    subst this
    by_cases hv : ∃ e', e = .vec e'
    · obtain ⟨e', rfl⟩ := hv
      exact h2 (vec_name hx)
    · by_cases ha : ∃ n e', e = .arr n e'
      · obtain ⟨n, e', rfl⟩ := ha
        exact h3 (arr_name hx)
      · have := (simple_names (fun e he => hv ⟨e, he⟩) (fun n e he => ha ⟨n, e, he⟩) _ hx).1
        rw [h1] at this
        exact h4 (this ▸ hx)
  · by_cases ha : ∃ n e, t = .arr n e
    · obtain ⟨n, e, rfl⟩ := ha
      rw [arr_name h] at hl
      cases hl
    · exact (simple_names (fun e he => hv ⟨e, he⟩) (fun n e he => ha ⟨n, e, he⟩) _ h).2.1 hl

example {α : Type} (func : Rd α) (t : Ty) :
    (demoNamed (b! "vector<unsigned char>")).asIter emptyReader true (some t.rdClassNames) func = .error (.err .typeMismatch) :=
  C53_false (s := b! "unsigned char") (by decide) (demoNamed_named _) true func t

/-- Members that are `Long64_t`, `ULong64_t`, `bool`, `Double32_t` or `Float16_t`: asking for the column as any
Rust type that has a name aborts. -/
theorem C53_members_false {r : Reader} {b : Branch} {code : Int} (hc : code ∈ otherCodes) {p : Str}
    (h1 : (91 : Byte) ∉ p) (hb : MemberColumn b code p) (hst : ∀ e, b.elem = some e → e.stype = code) (top : Bool)
    {α : Type} (func : Rd α) (names : List Str) :
    b.asIter r top (some names) func = .error .panic := by
  obtain ⟨hf, he, v, tl, id, hl, rfl⟩ := hb
  obtain ⟨e, he⟩ := Option.ne_none_iff_exists'.1 he
  have hs := hst e he
  have h2 : ∀ c ∈ otherCodes, leafTypeName c = none ∧ c ≠ 65 ∧ c ≠ 300 ∧ c ≠ -1 := by decide +kernel
  obtain ⟨h3, h4, h5, h6⟩ := h2 code hc
  have : b.itemTypeName r top = .error .panic := by
    unfold Branch.itemTypeName
    rw [he]
    dsimp only
    unfold BranchElem.itemTypeName
    rw [hf, hl, if_neg (by simp)]
    dsimp only [Leaf.tleaf]
    rw [leafDim_plain h1]
    simp only [bind, Except.bind, Leaf.typeName, h3, hs]
    rw [if_neg h4, if_neg (by omega)]
  unfold Branch.asIter
  dsimp only
  rw [this]
  rfl

example {α : Type} (func : Rd α) (t : Ty) :
    (demoMember 18 (b! "x")).asIter emptyReader false (some t.rdClassNames) func = .error .panic :=
  C53_members_false (by decide) (by decide) (demoMember_member _ _) (fun e he => by cases he; rfl) false func _

end Verif
