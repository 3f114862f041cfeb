import Verif.Spec.DeriveRead
import Verif.Props.Derive
import Verif.Props.Total
import Verif.Props.CppNames
import Verif.Props.Containers
import Verif.Props.Described
/-
C56 (structures read back with derived readers), C57 (slicable structures).
-/
namespace Verif

/-! ### Looking up -/

theorem lookupTop_eq (n : Str) : (bs : List Branch) → (lookupTop bs n).map Prod.fst = lookupBranch bs n
  | [] => by simp [lookupTop, lookupBranch]
  | b :: bs => by
    unfold lookupTop lookupBranch
    by_cases h : b.name = n
    · rw [if_pos h, if_pos h]; rfl
    · rw [if_neg h, if_neg h]
      cases b.lookup n with
      | some x => rfl
      | none => exact lookupTop_eq n bs

theorem lookupTop_of {bs : List Branch} {n : Str} {b : Branch} (h : lookupBranch bs n = some b) :
    ∃ top, lookupTop bs n = some (b, top) := by
  have := lookupTop_eq n bs
  rw [h] at this
  obtain ⟨x, hx, e⟩ := Option.map_eq_some_iff.1 this
  exact ⟨x.2, by rw [hx, ← e]⟩

theorem lookupTop_none {bs : List Branch} {n : Str} (h : lookupBranch bs n = none) : lookupTop bs n = none := by
  have := lookupTop_eq n bs
  rw [h] at this
  exact Option.map_eq_none_iff.1 this

/-! ### Reading -/

section
variable {r : Reader} {bs : List Branch}

theorem readColumn_of {c : Column} (h : Holding r bs c) :
    readColumn r bs c.ty.rdClassNames c.ty.unmarshal c.name = .ok fun i => c.vals[i]? := by
  obtain ⟨b, top, h1, h2⟩ := h
  unfold readColumn
  rw [h1]
  show (do let vs ← b.asIter r top (some c.ty.rdClassNames) c.ty.unmarshal; pure fun i => vs[i]?) = _
  rw [h2]
  rfl

/-- What an iterator has to give: the values, and nothing after them if any column is read. -/
def GivesFirst {α} (cols : List Column) (it : Nat → Option α) (rows : List α) : Prop :=
  (∀ i (h : i < rows.length), it i = some rows[i]) ∧ (cols ≠ [] → ∀ i, rows.length ≤ i → it i = none)

theorem GivesFirst.pair {α β : Type} {rows : List (α × β)} {cs ds : List Column} {x : Nat → Option α} {y : Nat → Option β}
    (hx : GivesFirst cs x (rows.map Prod.fst)) (hy : GivesFirst ds y (rows.map Prod.snd)) :
    GivesFirst (cs ++ ds) (fun i => do let v ← x i; let vs ← y i; some (v, vs)) rows := by
  obtain ⟨x1, x2⟩ := hx
  obtain ⟨y1, y2⟩ := hy
  simp only [List.length_map, List.getElem_map] at x1 x2 y1 y2
  refine ⟨fun i hi => ?_, fun hne i hi => ?_⟩
  · show (x i).bind (fun v => (y i).bind fun vs => some (v, vs)) = _
    rw [x1 i hi, y1 i hi]
    rfl
  · show (x i).bind (fun v => (y i).bind fun vs => some (v, vs)) = _
    by_cases hs : cs = []
    · rw [hs, List.nil_append] at hne
      rw [y2 hne i hi]
      cases x i <;> rfl
    · rw [x2 hs i hi]
      rfl

mutual
theorem Shape.read_stored : (s : Shape) → (b : BranchName) → b.name.isSome → (rows : List s.Val) →
    (∀ c ∈ s.stored b.finalName rows, Holding r bs c) →
    ∃ it, s.read r bs b = .ok it ∧ GivesFirst (s.stored b.finalName rows) it rows
  | .leaf t, b, _, rows, h => by
    refine ⟨fun i => (rows : List t.Val)[i]?, readColumn_of (h _ (List.mem_singleton.2 rfl)), ?_, ?_⟩
    · intro i hi
      exact List.getElem?_eq_getElem hi
    · intro _ i hi
      exact List.getElem?_eq_none hi
  | .struct g fs, b, hb, rows, h => by
    obtain ⟨n, hn⟩ := Option.isSome_iff_exists.1 hb
    have := Fields.read_stored fs g b rows
    rw [hn] at this
    exact this h
theorem Fields.read_stored : (fs : Fields) → (g : Option Str) → (b : BranchName) → (rows : List fs.Val) →
    (∀ c ∈ fs.stored g (b.name.map fun _ => b.finalName) rows, Holding r bs c) →
    ∃ it, fs.read r bs g b = .ok it ∧ GivesFirst (fs.stored g (b.name.map fun _ => b.finalName) rows) it rows
  | .nil, _, _, rows, _ => ⟨fun _ => some (), rfl, fun _ _ => rfl, fun h => absurd rfl h⟩
  | .cons o s fs, g, b, rows, h => by
    have e : s.stored (documentedName o g (b.name.map fun _ => b.finalName)) (rows.map Prod.fst) =
        s.stored (o.branchName g b).finalName (rows.map Prod.fst) := by rw [o.branchName_final]
    unfold Fields.stored at h ⊢
    rw [e] at h ⊢
    obtain ⟨x, hx, x1, x2⟩ := Shape.read_stored s (o.branchName g b) (o.branchName_named g b) (rows.map Prod.fst)
      fun c hc => h c (List.mem_append_left _ hc)
    obtain ⟨y, hy, y1, y2⟩ := Fields.read_stored fs g b (rows.map Prod.snd)
      fun c hc => h c (List.mem_append_right _ hc)
    refine ⟨fun i => do let v ← x i; let vs ← y i; some (v, vs), ?_,
      GivesFirst.pair (α := s.Val) (β := fs.Val) ⟨x1, x2⟩ ⟨y1, y2⟩⟩
    unfold Fields.read
    rw [hx, hy]
    rfl
end

/-- C56: a tree whose branches hold the columns of structures, under their documented names, gives these
structures: all of them, in order, and nothing more.  At least one field has to be stored in a branch. -/
theorem C56_reads {g : Option Str} {fs : Fields} (rows : List fs.Val) (hne : fs.stored g none rows ≠ [])
    (h : ∀ c ∈ fs.stored g none rows, Holding r bs c) :
    ∃ it, (Shape.struct g fs).fromTree r bs = .ok it ∧ Gives it rows := by
  obtain ⟨it, h1, h2, h3⟩ := Fields.read_stored fs g .new rows h
  refine ⟨it, h1, fun i => ?_⟩
  rcases Nat.lt_or_ge i rows.length with hi | hi
  · exact (h2 i hi).trans (List.getElem?_eq_getElem hi).symm
  · exact (h3 hne i hi).trans (List.getElem?_eq_none hi).symm

/-! ### Every tree -/

/-- The iterator puts together what is in the columns. -/
structure PutTogether {α : Type} (r : Reader) (bs : List Branch) (cols : List α → List Column) (it : Nat → Option α) :
    Prop where
  rows : ∀ k, (∀ i, i < k → (it i).isSome) → ∃ rows : List α, rows.length = k ∧
    (∀ i (h : i < rows.length), it i = some rows[i]) ∧
    (∀ c ∈ cols rows, ∃ more, Holding r bs ⟨c.ty, c.name, c.vals ++ more⟩) ∧
    (it k = none → ∃ c ∈ cols rows, Holding r bs c)
  stays : ∀ i j, it i = none → i ≤ j → it j = none
  ends : cols [] ≠ [] → ∃ k, it k = none

theorem PutTogether.column {t : Ty} {n : Str} {it : Nat → Option t.Val}
    (h : readColumn r bs t.rdClassNames t.unmarshal n = .ok it) :
    PutTogether r bs (fun rows => [⟨t, n, rows⟩]) it := by
  unfold readColumn at h
  cases hl : lookupTop bs n with
  | none => rw [hl] at h; cases h
  | some x =>
    obtain ⟨b, top⟩ := x
    rw [hl] at h
    obtain ⟨vs, hv, h⟩ := Res.ok_bind.1 h
    cases h
    refine ⟨fun k hk => ?_, fun i j hi hij => ?_, fun _ => ⟨vs.length, List.getElem?_eq_none (Nat.le_refl _)⟩⟩
    · have hkl : k ≤ vs.length := by
        apply Nat.le_of_not_lt
        intro hlt
        have := hk _ hlt
        rw [List.getElem?_eq_none (Nat.le_refl _)] at this
        cases this
      refine ⟨vs.take k, by rw [List.length_take]; omega, fun i hi => ?_, fun c hc => ?_, fun hn => ?_⟩
      · rw [List.length_take] at hi
        show vs[i]? = _
        rw [List.getElem_take, List.getElem?_eq_getElem (by omega)]
      · cases List.mem_singleton.1 hc
        exact ⟨vs.drop k, b, top, hl, by rw [List.take_append_drop]; exact hv⟩
      · have : vs.length ≤ k := List.getElem?_eq_none_iff.1 hn
        exact ⟨_, List.mem_singleton.2 rfl, b, top, hl, by rw [List.take_of_length_le this]; exact hv⟩
    · have : vs.length ≤ i := List.getElem?_eq_none_iff.1 hi
      exact List.getElem?_eq_none (by omega)

theorem PutTogether.pair {α β : Type} {A : List α → List Column} {B : List β → List Column} {x : Nat → Option α}
    {y : Nat → Option β} (hx : PutTogether r bs A x) (hy : PutTogether r bs B y) :
    PutTogether r bs (fun rows : List (α × β) => A (rows.map Prod.fst) ++ B (rows.map Prod.snd))
      (fun i => do let v ← x i; let vs ← y i; some (v, vs)) := by
  have hnone : ∀ i, (do let v ← x i; let vs ← y i; some (v, vs)) = none ↔ x i = none ∨ y i = none := by
    intro i
    cases x i <;> cases y i <;> simp
  refine ⟨fun k hk => ?_, fun i j hi hij => ?_, fun hne => ?_⟩
  · have hxk : ∀ i, i < k → (x i).isSome := by
      intro i hi
      have := hk i hi
      cases hxi : x i with
      | none => rw [(hnone i).2 (.inl hxi)] at this; cases this
      | some => rfl
    have hyk : ∀ i, i < k → (y i).isSome := by
      intro i hi
      have := hk i hi
      cases hyi : y i with
      | none => rw [(hnone i).2 (.inr hyi)] at this; cases this
      | some => rfl
    obtain ⟨as, a1, a2, a3, a4⟩ := hx.rows k hxk
    obtain ⟨cs, c1, c2, c3, c4⟩ := hy.rows k hyk
    have e1 : (as.zip cs).map Prod.fst = as := List.map_fst_zip (by omega)
    have e2 : (as.zip cs).map Prod.snd = cs := List.map_snd_zip (by omega)
    refine ⟨as.zip cs, by rw [List.length_zip]; omega, fun i hi => ?_, fun c hc => ?_, fun hn => ?_⟩
    · rw [List.length_zip] at hi
      show (x i).bind (fun v => (y i).bind fun vs => some (v, vs)) = _
      rw [a2 i (by omega), c2 i (by omega), List.getElem_zip]
      rfl
    · simp only [e1, e2] at hc
      rcases List.mem_append.1 hc with hc | hc
      · exact a3 c hc
      · exact c3 c hc
    · simp only [e1, e2]
      rcases (hnone k).1 hn with h | h
      · obtain ⟨c, hc, hh⟩ := a4 h
        exact ⟨c, List.mem_append_left _ hc, hh⟩
      · obtain ⟨c, hc, hh⟩ := c4 h
        exact ⟨c, List.mem_append_right _ hc, hh⟩
  · rcases (hnone i).1 hi with h | h
    · exact (hnone j).2 (.inl (hx.stays i j h hij))
    · exact (hnone j).2 (.inr (hy.stays i j h hij))
  · by_cases ha : A [] = []
    · obtain ⟨k, hk⟩ := hy.ends (fun hb => hne (by simp [ha, hb]))
      exact ⟨k, (hnone k).2 (.inr hk)⟩
    · obtain ⟨k, hk⟩ := hx.ends ha
      exact ⟨k, (hnone k).2 (.inl hk)⟩

mutual
theorem Shape.read_together : (s : Shape) → (b : BranchName) → b.name.isSome → (it : Nat → Option s.Val) →
    s.read r bs b = .ok it → PutTogether r bs (s.stored b.finalName) it
  | .leaf t, b, _, it, h => PutTogether.column h
  | .struct g fs, b, hb, it, h => by
    obtain ⟨n, hn⟩ := Option.isSome_iff_exists.1 hb
    have := Fields.read_together fs g b it h
    rw [hn] at this
    exact this
theorem Fields.read_together : (fs : Fields) → (g : Option Str) → (b : BranchName) → (it : Nat → Option fs.Val) →
    fs.read r bs g b = .ok it → PutTogether r bs (fs.stored g (b.name.map fun _ => b.finalName)) it
  | .nil, _, _, it, h => by
    cases h
    exact ⟨fun k _ => ⟨List.replicate k (), List.length_replicate, fun _ _ => rfl, (fun c hc => by cases hc),
      fun h => by cases h⟩, (fun _ _ h => by cases h), fun h => absurd rfl h⟩
  | .cons o s fs, g, b, it, h => by
    unfold Fields.read at h
    obtain ⟨x, hx, h⟩ := Res.ok_bind.1 h
    obtain ⟨y, hy, h⟩ := Res.ok_bind.1 h
    cases h
    have h1 := Shape.read_together s (o.branchName g b) (o.branchName_named g b) x hx
    rw [o.branchName_final] at h1
    exact PutTogether.pair h1 (Fields.read_together fs g b y hy)
end

theorem exists_first {p : Nat → Prop} [DecidablePred p] : ∀ k, p k → ∃ m, p m ∧ ∀ i, i < m → ¬ p i := by
  intro k
  induction k using Nat.strongRecOn with
  | _ k ih =>
    intro hk
    by_cases h : ∃ i, i < k ∧ p i
    · obtain ⟨i, hi, hp⟩ := h
      exact ih i hi hp
    · exact ⟨k, hk, fun i hi hp => h ⟨i, hi, hp⟩⟩

/-- C56, whatever the tree: when a derived reader accepts a tree, there is a branch with the documented
name and the type of every field; the reader gives structures whose fields are the values of these
branches, entry by entry, as many as the shortest branch has. -/
theorem C56_rows {g : Option Str} {fs : Fields} {it : Nat → Option fs.Val} (hne : fs.stored g none [] ≠ [])
    (h : (Shape.struct g fs).fromTree r bs = .ok it) :
    ∃ rows : List fs.Val, Gives it rows ∧
      (∀ c ∈ fs.stored g none rows, ∃ more, Holding r bs ⟨c.ty, c.name, c.vals ++ more⟩) ∧
      ∃ c ∈ fs.stored g none rows, Holding r bs c := by
  have ht := Fields.read_together fs g .new it h
  obtain ⟨k, hk⟩ := ht.ends hne
  obtain ⟨m, hm, hlt⟩ := exists_first (p := fun i => (it i).isNone = true) k (by simp [hk])
  obtain ⟨rows, h1, h2, h3, h4⟩ := ht.rows m fun i hi => by
    have := hlt i hi
    cases hi : it i with
    | none => rw [hi] at this; exact absurd rfl this
    | some => rfl
  have hm : it m = none := by simpa using hm
  refine ⟨rows, fun i => ?_, h3, h4 hm⟩
  rcases Nat.lt_or_ge i rows.length with hi | hi
  · exact (h2 i hi).trans (List.getElem?_eq_getElem hi).symm
  · exact (ht.stays m i hm (by omega)).trans (List.getElem?_eq_none hi).symm

mutual
theorem Shape.stored_names : (s : Shape) → (n : Str) → (rows : List s.Val) →
    (s.stored n rows).map (fun c => c.name) = s.documentedNames n
  | .leaf _, _, _ => rfl
  | .struct g fs, n, rows => Fields.stored_names fs g (some n) rows
theorem Fields.stored_names : (fs : Fields) → (g p : Option Str) → (rows : List fs.Val) →
    (fs.stored g p rows).map (fun c => c.name) = fs.documentedNames g p
  | .nil, _, _, _ => rfl
  | .cons o s fs, g, p, rows => by
    unfold Fields.stored Fields.documentedNames
    rw [List.map_append, Shape.stored_names s, Fields.stored_names fs]
end

mutual
theorem Shape.stored_types : (s : Shape) → (n : Str) → (rows rows' : List s.Val) →
    (s.stored n rows).map (fun c => (c.name, c.ty)) = (s.stored n rows').map fun c => (c.name, c.ty)
  | .leaf _, _, _, _ => rfl
  | .struct g fs, n, rows, rows' => Fields.stored_types fs g (some n) rows rows'
theorem Fields.stored_types : (fs : Fields) → (g p : Option Str) → (rows rows' : List fs.Val) →
    (fs.stored g p rows).map (fun c => (c.name, c.ty)) = (fs.stored g p rows').map fun c => (c.name, c.ty)
  | .nil, _, _, _, _ => rfl
  | .cons o s fs, g, p, rows, rows' => by
    unfold Fields.stored
    rw [List.map_append, List.map_append, Shape.stored_types s _ _ (rows'.map Prod.fst),
      Fields.stored_types fs _ _ _ (rows'.map Prod.snd)]
end

mutual
theorem Shape.read_or : (s : Shape) → (e : Fault) → (b : BranchName) → b.name.isSome →
    (∀ c ∈ s.stored b.finalName [], readColumn r bs c.ty.rdClassNames c.ty.unmarshal c.name = .error e ∨ ∃ vs, Holding r bs ⟨c.ty, c.name, vs⟩) →
    (∃ it, s.read r bs b = .ok it) ∨ s.read r bs b = .error e
  | .leaf t, e, b, _, h => by
    rcases h _ (List.mem_singleton.2 rfl) with h | ⟨vs, h⟩
    · exact .inr h
    · exact .inl ⟨_, readColumn_of h⟩
  | .struct g fs, e, b, hb, h => by
    obtain ⟨n, hn⟩ := Option.isSome_iff_exists.1 hb
    have := Fields.read_or fs e g b
    rw [hn] at this
    exact this h
theorem Fields.read_or : (fs : Fields) → (e : Fault) → (g : Option Str) → (b : BranchName) →
    (∀ c ∈ fs.stored g (b.name.map fun _ => b.finalName) [], readColumn r bs c.ty.rdClassNames c.ty.unmarshal c.name = .error e ∨
      ∃ vs, Holding r bs ⟨c.ty, c.name, vs⟩) →
    (∃ it, fs.read r bs g b = .ok it) ∨ fs.read r bs g b = .error e
  | .nil, _, _, _, _ => .inl ⟨_, rfl⟩
  | .cons o s fs, e, g, b, h => by
    unfold Fields.stored at h
    have h1 := Shape.read_or s e (o.branchName g b) (o.branchName_named g b) fun c hc =>
      h c (List.mem_append_left _ (by rw [o.branchName_final] at hc; exact hc))
    have h2 := Fields.read_or fs e g b fun c hc => h c (List.mem_append_right _ hc)
    unfold Fields.read
    rcases h1 with ⟨x, h1⟩ | h1
    · rcases h2 with ⟨y, h2⟩ | h2
      · exact .inl ⟨_, by rw [h1, h2]; rfl⟩
      · right; rw [h1, h2]; rfl
    · right; rw [h1]; rfl
end

theorem read_refused {g : Option Str} {fs : Fields} {e : Fault}
    (h : ∃ c ∈ fs.stored g none [], readColumn r bs c.ty.rdClassNames c.ty.unmarshal c.name = .error e)
    (ho : ∀ c ∈ fs.stored g none [], readColumn r bs c.ty.rdClassNames c.ty.unmarshal c.name = .error e ∨
      ∃ vs, Holding r bs ⟨c.ty, c.name, vs⟩) :
    (Shape.struct g fs).fromTree r bs = .error e := by
  rcases Fields.read_or fs e g .new ho with ⟨it, hr⟩ | hr
  · exfalso
    obtain ⟨c, hc, h⟩ := h
    obtain ⟨rows, -, h3, -⟩ := C56_rows (fun e => by rw [e] at hc; cases hc) hr
    have hm : (c.name, c.ty) ∈ (fs.stored g none rows).map fun c => (c.name, c.ty) := by
      rw [Fields.stored_types fs g none rows []]
      exact List.mem_map_of_mem (f := fun c : Column => (c.name, c.ty)) hc
    obtain ⟨c', hc', ec⟩ := List.mem_map.1 hm
    obtain ⟨more, hh⟩ := h3 c' hc'
    have := readColumn_of hh
    injection ec with e1 e2
    obtain ⟨ty, name, vals⟩ := c
    dsimp only at e1 e2 h
    subst e1 e2
    rw [h] at this
    cases this
  · exact hr

/-- C56: a field whose branch is missing is never made up: if a branch is missing, and the others have the
types of their fields, the call returns the error `BranchNotFound`. -/
theorem C56_missing {g : Option Str} {fs : Fields} {n : Str} (hn : n ∈ fs.documentedNames g none)
    (h : lookupBranch bs n = none)
    (ho : ∀ c ∈ fs.stored g none [], lookupBranch bs c.name = none ∨ ∃ vs, Holding r bs ⟨c.ty, c.name, vs⟩) :
    (Shape.struct g fs).fromTree r bs = .error (.err .branchNotFound) := by
  have hmiss : ∀ c : Column, lookupBranch bs c.name = none →
      readColumn r bs c.ty.rdClassNames c.ty.unmarshal c.name = .error (.err .branchNotFound) := by
    intro c hc
    unfold readColumn
    rw [lookupTop_none hc]
  rw [← Fields.stored_names fs g none []] at hn
  obtain ⟨c, hc, rfl⟩ := List.mem_map.1 hn
  exact read_refused ⟨c, hc, hmiss c h⟩ fun c hc => (ho c hc).imp_left (hmiss c)

/-- C56: if a branch has not the type of its field, and the others have, the call returns a type mismatch. -/
theorem C56_mismatch {g : Option Str} {fs : Fields} {c : Column} (hc : c ∈ fs.stored g none []) {b : Branch} {top : Bool}
    {n : Str} (hb : lookupTop bs c.name = some (b, top)) (hn : b.itemTypeName r top = .ok n) (h : n ∉ c.ty.rdClassNames)
    (ho : ∀ c' ∈ fs.stored g none [], c' = c ∨ ∃ vs, Holding r bs ⟨c'.ty, c'.name, vs⟩) :
    (Shape.struct g fs).fromTree r bs = .error (.err .typeMismatch) := by
  have hm : readColumn r bs c.ty.rdClassNames c.ty.unmarshal c.name = .error (.err .typeMismatch) := by
    unfold readColumn
    rw [hb]
    show (do let vs ← b.asIter r top (some c.ty.rdClassNames) c.ty.unmarshal; pure fun i => vs[i]?) = _
    rw [C38_refused r top _ _ b n hn h]
    rfl
  exact read_refused ⟨c, hc, hm⟩ fun c' hc' => (ho c' hc').imp_left fun e => by rw [e]; exact hm

end

/-! ### Written and read -/

section
variable {addr : Nat → Nat} {path : Str} {ids : Nat} {ts : List TreeIn}

/-- C56: structures stored column by column, under the documented names, in any tree of a file, are given
back by the derived reader, however deep they are nested and whatever attributes are used. -/
theorem C56_columns (ha : ∀ i j, addr i = addr j → i = j) (hmem : ∀ j, ids + 20000000 ≤ addr j)
    (htext : utf8 path = true) (hpath : path.length ≤ 478) (hs : Storables ts) (dec : Decoders) (fuel : Nat)
    (hfuel : 3 ≤ fuel) {t : TreeIn} (ht : t ∈ ts) {g : Option Str} {fs : Fields} {rows : List fs.Val}
    (hcols : t.cols = fs.stored g none rows) (hne : fs.documentedNames g none ≠ [])
    (hnd : (fs.documentedNames g none).Nodup) (hn : ∀ n ∈ fs.documentedNames g none, PlainName n) :
    ∃ f' r td bs it, writeFile (bundledEnv addr) ts (FileW.initial path ids) = (.ok (), f') ∧
      openFile dec fuel (image f'.trace) = .ok r ∧ r.getTree dec fuel t.name = .ok (td, bs, none) ∧
      (Shape.struct g fs).fromTree (r.reader dec) bs = .ok it ∧ Gives it rows := by
  obtain ⟨f', r, h1, h2, -, h3⟩ := C50_total ha hmem htext hpath hs dec fuel hfuel
  obtain ⟨td, bs, h4, -, -, -, h5⟩ := h3 t ht
  have hnames := Fields.stored_names fs g none rows
  rw [hcols] at h5
  rw [hnames] at h5
  have h6 := h5 hnd
  obtain ⟨it, h7, h8⟩ := C56_reads (r := r.reader dec) (bs := bs) (g := g) rows (by
    intro e
    rw [e] at hnames
    exact hne hnames.symm) fun c hc => by
      have hc' : c.name ∈ fs.documentedNames g none := hnames ▸ List.mem_map_of_mem hc
      obtain ⟨b, hb, hv⟩ := h6 c hc (hn _ hc').1 (hn _ hc').2
      obtain ⟨top, htop⟩ := lookupTop_of hb
      exact ⟨b, top, htop, (hv top).1⟩
  exact ⟨f', r, td, bs, it, h1, h2, h4, h7, h8⟩

theorem Fields.columns_stored : (fs : Fields) → fs.Flat → fs.Plain → (rows : List fs.Val) →
    fs.columns rows = fs.stored none none rows
  | .nil, _, _, _ => rfl
  | .cons o (.leaf t) fs, hf, hp, rows => by
    have e : documentedName o none none = o.name := by
      obtain ⟨e1, e2, e3⟩ := hp.1
      unfold documentedName
      rw [e1, e2, e3]
      rfl
    unfold Fields.columns Fields.stored
    rw [e, Fields.columns_stored fs hf hp.2]
    rfl
  | .cons _ (.struct ..) _, hf, _, _ => hf.elim

/-- C56: structures whose fields are all stored in branches, without attributes, are given back by the derived
reader as they were given to the derived writer: writing them to a new file meets no error, and reading
the tree gives the same structures, in the same order, and nothing more.  Missing: nested structures
and attributes, for which it is false (`C56_nested_false`, `C27_rename_false`). -/
theorem C56_roundtrip_partial (ha : ∀ i j, addr i = addr j → i = j) (hmem : ∀ j, ids + 20000000 ≤ addr j)
    (htext : utf8 path = true) (hpath : path.length ≤ 478) (dec : Decoders) (fuel : Nat) (hfuel : 3 ≤ fuel)
    {fs : Fields} (hf : fs.Flat) (hp : fs.Plain) {rows : List fs.Val} {name : Str} {places : Places}
    (hs : Storables [⟨name, 1, fs.columns rows, places⟩]) (hne : fs.documentedNames none none ≠ [])
    (hnd : (fs.documentedNames none none).Nodup) (hn : ∀ n ∈ fs.documentedNames none none, PlainName n) :
    ∃ f' r td bs it,
      writeRows (bundledEnv addr) (.struct none fs) name rows places (FileW.initial path ids) = (.ok (), f') ∧
      openFile dec fuel (image f'.trace) = .ok r ∧ r.getTree dec fuel name = .ok (td, bs, none) ∧
      (Shape.struct none fs).fromTree (r.reader dec) bs = .ok it ∧ Gives it rows := by
  obtain ⟨f', r, td, bs, it, h1, h2, h3, h4, h5⟩ := C56_columns ha hmem htext hpath hs dec fuel hfuel
    (List.mem_singleton.2 rfl) (g := none) (rows := rows) (Fields.columns_stored fs hf hp rows) hne hnd hn
  refine ⟨f', r, td, bs, it, ?_, h2, h3, h4, h5⟩
  unfold writeFile at h1
  obtain ⟨_, f1, e1, h1⟩ := Fs.ok_bind.1 h1
  obtain ⟨_, f2, e2, h1⟩ := Fs.ok_bind.1 h1
  unfold writeTrees at e2
  obtain ⟨w, f3, e3, e2⟩ := Fs.ok_bind.1 e2
  obtain ⟨w', f4, e4, e2⟩ := Fs.ok_bind.1 e2
  cases e2
  unfold writeRows
  rw [C47_flat hf, Fs.bind_of_ok e1, Fs.bind_of_ok e3, Fs.bind_of_ok e4]
  exact h1

end

/-! ### The hypotheses can be met -/

/-- A structure with a prefix, a renamed field, and a structure that has a field with an absolute name. -/
def demoFields : Fields :=
  .cons { name := b! "a", rename := some (b! "c") } (.leaf .i32)
  (.cons { name := b! "s" } (.struct none
    (.cons { name := b! "x" } (.leaf .string)
    (.cons { name := b! "y", absolute := some (b! "z") } (.leaf (.vec .f64)) .nil))) .nil)

/-- Two of them. -/
def demoStructs : List demoFields.Val :=
  [((5 : Int), ((b! "one" : Str), ([1, 2] : List Nat), ()), ()), ((-6 : Int), ((b! "" : Str), ([] : List Nat), ()), ())]

/-- Their tree. -/
def demoStructTree : TreeIn :=
  { name := b! "t", cols := demoFields.stored (some (b! "p_")) none demoStructs, places := demoPlaces }

example : demoFields.documentedNames (some (b! "p_")) none = [b! "p_c", b! "p_s.x", b! "z"] := by decide

theorem demoStructs_storable : Storables [demoStructTree] := by
  refine ⟨fun t ht => ?_, by decide, by decide⟩
  rw [List.mem_singleton.1 ht]
  refine ⟨by decide, by decide, by decide, by decide, fun c hc => ?_, fun _ => rfl, by decide⟩
  have e : demoStructTree.cols = [⟨.i32, b! "p_c", [5, -6]⟩, ⟨.string, b! "p_s.x", [b! "one", b! ""]⟩,
      ⟨.vec .f64, b! "z", [[1, 2], []]⟩] := rfl
  rw [e] at hc
  simp only [List.mem_cons, List.not_mem_nil, or_false] at hc
  rcases hc with rfl | rfl | rfl
  · exact ⟨rfl, by decide, by decide, by decide, by decide, by decide⟩
  · exact ⟨rfl, by decide, by decide, by decide, by decide, by decide⟩
  · exact ⟨rfl, by decide, by decide, by decide, by decide, by decide⟩

/-- The hypotheses of `C56_columns` can be met, and so can those of `C56_reads` and `C56_rows`. -/
example (dec : Decoders) : ∃ (r : Reader) (bs : List Branch) (it : Nat → Option demoFields.Val),
    (Shape.struct (some (b! "p_")) demoFields).fromTree r bs = .ok it ∧ Gives it demoStructs ∧
      demoFields.stored (some (b! "p_")) none [] ≠ [] := by
  obtain ⟨f', r, td, bs, it, -, -, -, h1, h2⟩ := C56_columns (addr := fun j => j + 20000001) (path := b! "d.root")
    (ids := 1) (fun _ _ h => by simpa using h) (fun j => by show _ ≤ j + 20000001; omega) (by decide) (by decide)
    demoStructs_storable dec 3 (Nat.le_refl _) (List.mem_singleton.2 rfl) (g := some (b! "p_"))
    (rows := demoStructs) rfl (by decide) (by decide) (by
      intro n hn
      have e : demoFields.documentedNames (some (b! "p_")) none = [b! "p_c", b! "p_s.x", b! "z"] := by decide
      rw [e] at hn
      simp only [List.mem_cons, List.not_mem_nil, or_false] at hn
      rcases hn with rfl | rfl | rfl <;> exact ⟨by decide, by decide⟩)
  exact ⟨r.reader dec, bs, it, h1, h2, by intro h; cases h⟩

/-- A structure without attributes. -/
def demoFlat : Fields := .cons { name := b! "a" } (.leaf .i32) (.cons { name := b! "b" } (.leaf .string) .nil)

/-- Two of them. -/
def demoFlatRows : List demoFlat.Val := [((5 : Int), (b! "one" : Str), ()), ((-6 : Int), (b! "" : Str), ())]

/-- The hypotheses of `C56_roundtrip_partial` can be met. -/
example : demoFlat.Flat ∧ demoFlat.Plain ∧ Storables [⟨b! "t", 1, demoFlat.columns demoFlatRows, demoPlaces⟩] ∧
    (demoFlat.documentedNames none none).Nodup ∧ ∀ n ∈ demoFlat.documentedNames none none, PlainName n := by
  refine ⟨trivial, ⟨⟨rfl, rfl, rfl⟩, ⟨rfl, rfl, rfl⟩, trivial⟩, ⟨fun t ht => ?_, by decide, by decide⟩, by decide, ?_⟩
  · rw [List.mem_singleton.1 ht]
    refine ⟨by decide, by decide, by decide, by decide, fun c hc => ?_, fun _ => rfl, by decide⟩
    have e : demoFlat.columns demoFlatRows = [⟨.i32, b! "a", [5, -6]⟩, ⟨.string, b! "b", [b! "one", b! ""]⟩] := rfl
    dsimp only at hc
    rw [e] at hc
    simp only [List.mem_cons, List.not_mem_nil, or_false] at hc
    rcases hc with rfl | rfl
    · exact ⟨rfl, by decide, by decide, by decide, by decide, by decide⟩
    · exact ⟨rfl, by decide, by decide, by decide, by decide, by decide⟩
  · intro n hn
    have e : demoFlat.documentedNames none none = [b! "a", b! "b"] := by decide
    rw [e] at hn
    simp only [List.mem_cons, List.not_mem_nil, or_false] at hn
    rcases hn with rfl | rfl <;> exact ⟨by decide, by decide⟩

/-- The hypotheses of `C56_missing` can be met: a tree with a branch for the first field of a structure and none
for the second. -/
example : lookupBranch [demoArrayBranch []] (b! "y") = none ∧ (lookupBranch [demoArrayBranch []] (b! "x")).isSome ∧
    b! "y" ∈ (Fields.cons { name := b! "y" } (.leaf .i32) .nil).documentedNames none none ∧
    (Shape.struct none (Fields.cons { name := b! "y" } (.leaf .i32) .nil)).fromTree emptyReader [demoArrayBranch []] =
      .error (.err .branchNotFound) := by
  have h : lookupBranch [demoArrayBranch []] (b! "y") = none := by decide +kernel
  have hm : b! "y" ∈ (Fields.cons { name := b! "y" } (.leaf .i32) .nil).documentedNames none none := by decide
  refine ⟨h, by decide +kernel, hm, C56_missing hm h fun c hc => .inl ?_⟩
  rw [List.mem_singleton.1 hc]
  exact h

/-- The hypotheses of `C56_mismatch` can be met: a branch of arrays, asked for as a number. -/
example : (Shape.struct none (Fields.cons { name := b! "x" } (.leaf .i32) .nil)).fromTree emptyReader [demoArrayBranch []] =
    .error (.err .typeMismatch) :=
  C56_mismatch (c := ⟨.i32, b! "x", []⟩) (List.mem_singleton.2 rfl) (b := demoArrayBranch []) (top := true)
    (n := b! "int32_t[]") rfl (ok_of_toOption (by decide +kernel)) (by decide) fun c' hc' => .inl (List.mem_singleton.1 hc')

/-- A structure with a field and a structure. -/
def nestedShape : Shape := .struct none
  (.cons { name := b! "a" } (.leaf .u8)
  (.cons { name := b! "s" } (.struct none (.cons { name := b! "x" } (.leaf .u8) .nil)) .nil))

/-- Two of them. -/
def nestedRows : List nestedShape.Val := [((9 : Nat), ((1 : Nat), ()), ()), ((8 : Nat), ((2 : Nat), ()), ())]

/-- They are written. -/
def nestedFile : Res Unit × FileW :=
  writeRows demoTreeEnv nestedShape (b! "t") nestedRows demoPlaces (FileW.initial (b! "d.root") 10)

/-- They are read. -/
def nestedRead : Res (Nat → Option nestedShape.Val) := do
  let dec : Decoders := ⟨fun _ => none, fun _ => none, fun _ => none⟩
  let r ← openFile dec 3 (image nestedFile.2.trace)
  let (_, bs, _) ← r.getTree dec 3 (b! "t")
  nestedShape.fromTree (r.reader dec) bs

theorem nested_checks : (isOk nestedFile.1 && (match nestedRead with
    | .ok _ => false
    | .error e => decide (e = .err .branchNotFound))) = true := by decide +kernel

/-- C56 is false for nested structures: they are written without any error, and what was written cannot be read
back as the same structures. -/
theorem C56_nested_false : ∃ f', writeRows demoTreeEnv nestedShape (b! "t") nestedRows demoPlaces
      (FileW.initial (b! "d.root") 10) = (.ok (), f') ∧
    (do
      let dec : Decoders := ⟨fun _ => none, fun _ => none, fun _ => none⟩
      let r ← openFile dec 3 (image f'.trace)
      let (_, bs, _) ← r.getTree dec 3 (b! "t")
      nestedShape.fromTree (r.reader dec) bs) = .error (.err .branchNotFound) := by
  obtain ⟨h1, h2⟩ := Bool.and_eq_true_iff.1 nested_checks
  refine ⟨nestedFile.2, ?_, ?_⟩
  · obtain ⟨a, ha⟩ := ok_result h1
    exact ha
  · show nestedRead = _
    generalize nestedRead = x at h2
    cases x with
    | ok => cases h2
    | error e => rw [of_decide_eq_true h2]

/-! ### Slicable structures -/

/-- The slices of some structures. -/
def Fields.slicesOf : (fs : Fields) → List fs.Val → fs.Slices
  | .nil, _ => ()
  | .cons _ (.leaf _) fs, l => (l.map Prod.fst, fs.slicesOf (l.map Prod.snd))
  | .cons _ (.struct ..) fs, l => fs.slicesOf (l.map Prod.snd)

theorem Fields.size_slicesOf : (fs : Fields) → fs.Flat → (l : List fs.Val) → (n : Nat) → n = l.length ∨ fs ≠ .nil →
    fs.sizeSlice (fs.slicesOf l) n = l.length
  | .nil, _, l, n, h => h.elim id fun h => absurd rfl h
  | .cons o (.leaf t) fs, hf, l, n, _ => by
    have e : (l.map Prod.snd : List fs.Val).length = l.length := List.length_map ..
    have := Fields.size_slicesOf fs hf (l.map Prod.snd) ((l.map Prod.fst : List t.Val).length)
      (.inl ((List.length_map ..).trans e.symm))
    exact this.trans e
  | .cons _ (.struct ..) _, hf, _, _, _ => hf.elim

theorem Fields.pick_slicesOf : (fs : Fields) → fs.Flat → (l : List fs.Val) → (i : Nat) → (h : i < l.length) →
    fs.pick (fs.slicesOf l) i = .ok l[i]
  | .nil, _, _, _, _ => rfl
  | .cons o (.leaf t) fs, hf, l, i, h => by
    have hl : i < (l.map Prod.snd : List fs.Val).length := by
      have e : (l.map Prod.snd : List fs.Val).length = l.length := List.length_map ..
      omega
    have h1 : (l.map Prod.fst : List t.Val)[i]? = some (l[i].1) := by
      have e : (l.map Prod.fst : List t.Val).length = l.length := List.length_map ..
      refine (List.getElem?_eq_getElem (by omega)).trans (congrArg some ?_)
      exact List.getElem_map ..
    have h2 : fs.pick (fs.slicesOf (l.map Prod.snd)) i = .ok l[i].2 := by
      refine (Fields.pick_slicesOf fs hf (l.map Prod.snd) i hl).trans (congrArg Except.ok ?_)
      exact List.getElem_map ..
    show (match (l.map Prod.fst : List t.Val)[i]? with
      | none => (.error .panic : Res (t.Val × fs.Val))
      | some v => do
        let vs ← fs.pick (fs.slicesOf (l.map Prod.snd)) i
        pure (v, vs)) = _
    rw [h1, h2]
    rfl
  | .cons _ (.struct ..) _, hf, _, _, _ => hf.elim

theorem collect_ok {α} {xs : List (Res α)} {ys : List α} (h : xs = ys.map .ok) : collect xs = .ok ys := by
  subst h
  induction ys with
  | nil => rfl
  | cons y ys ih =>
    show (do let a ← (.ok y : Res α); let as ← collect (ys.map .ok); pure (a :: as)) = _
    rw [ih]
    rfl

theorem Fields.transpose_slicesOf {fs : Fields} (hf : fs.Flat) (hne : fs ≠ .nil) (l : List fs.Val) :
    fs.transpose (fs.slicesOf l) = .ok l := by
  unfold Fields.transpose
  rw [Fields.size_slicesOf fs hf l 0 (.inr hne)]
  refine collect_ok ?_
  refine List.ext_getElem (by simp) fun i h1 h2 => ?_
  rw [List.getElem_map, List.getElem_range, List.getElem_map]
  exact Fields.pick_slicesOf fs hf l i (by simpa using h2)

section
variable {r : Reader} {bs : List Branch}

theorem readColumn_slices {c : SliceColumn} (h : HoldingSlices r bs c) :
    readColumn r bs (sliceClassNames c.ty) (Rd.slice c.ty.unmarshal) c.name = .ok fun i => c.vals[i]? := by
  obtain ⟨b, top, h1, h2⟩ := h
  unfold readColumn
  rw [h1]
  show (do let vs ← b.asIter r top (some (sliceClassNames c.ty)) (Rd.slice c.ty.unmarshal); pure fun i => vs[i]?) = _
  rw [h2]
  rfl

theorem Fields.readSlices_stored : (fs : Fields) → fs.Flat → (g : Option Str) → (b : BranchName) →
    (rows : List (List fs.Val)) →
    (∀ c ∈ fs.storedSlices g (b.name.map fun _ => b.finalName) rows, HoldingSlices r bs c) →
    ∃ it, fs.readSlices r bs g b = .ok it ∧ (∀ i (h : i < rows.length), it i = some (fs.slicesOf rows[i])) ∧
      (fs ≠ .nil → ∀ i, rows.length ≤ i → it i = none)
  | .nil, _, _, _, _, _ => ⟨fun _ => some (), rfl, fun _ _ => rfl, fun h => absurd rfl h⟩
  | .cons o (.leaf t) fs, hf, g, b, rows, h => by
    unfold Fields.storedSlices at h
    have h1 := readColumn_slices (h _ List.mem_cons_self)
    obtain ⟨y, h2, y1, y2⟩ := Fields.readSlices_stored fs hf g b (rows.map (List.map Prod.snd))
      fun c hc => h c (List.mem_cons_of_mem _ hc)
    have e1 : (rows.map (List.map Prod.fst) : List (List t.Val)).length = rows.length := List.length_map ..
    have e2 : (rows.map (List.map Prod.snd) : List (List fs.Val)).length = rows.length := List.length_map ..
    refine ⟨fun i => do
      let v ← (rows.map (List.map Prod.fst) : List (List t.Val))[i]?
      let vs ← y i
      some (v, vs), ?_, fun i hi => ?_, fun _ i hi => ?_⟩
    · unfold Fields.readSlices
      rw [o.branchName_final]
      show (do
        let x ← readColumn r bs (sliceClassNames t) (Rd.slice t.unmarshal) _
        let xs ← fs.readSlices r bs g b
        pure fun i => do
          let v ← x i
          let vs ← xs i
          some (v, vs)) = _
      rw [h1, h2]
      rfl
    · have a1 : (rows.map (List.map Prod.fst) : List (List t.Val))[i]? = some (rows[i].map Prod.fst) :=
        (List.getElem?_eq_getElem (by omega)).trans (congrArg some (List.getElem_map ..))
      have a2 : y i = some (fs.slicesOf (rows[i].map Prod.snd)) :=
        (y1 i (by omega)).trans (congrArg some (congrArg fs.slicesOf (List.getElem_map ..)))
      show ((rows.map (List.map Prod.fst) : List (List t.Val))[i]?).bind
        (fun v => (y i).bind fun vs => some (v, vs)) = _
      rw [a1, a2]
      rfl
    · show ((rows.map (List.map Prod.fst) : List (List t.Val))[i]?).bind
        (fun v => (y i).bind fun vs => some (v, vs)) = _
      rw [List.getElem?_eq_none (by omega)]
      rfl
  | .cons _ (.struct ..) _, hf, _, _, _, _ => hf.elim

/-- C57: a tree whose branches hold, for each entry, the slices of the fields of some structures, under the
documented names, gives for each entry these structures: as many as the slices have items, the first
with the first items, and so on. -/
theorem C57_slices {g : Option Str} {fs : Fields} (hf : fs.Flat) (hne : fs ≠ .nil) (parent : BranchName)
    (rows : List (List fs.Val))
    (h : ∀ c ∈ fs.storedSlices g (parent.name.map fun _ => parent.finalName) rows, HoldingSlices r bs c) :
    ∃ it, fs.readSliced r bs g parent = .ok it ∧ Gives it (rows.map .ok) := by
  obtain ⟨y, h1, h2, h3⟩ := Fields.readSlices_stored fs hf g parent rows h
  refine ⟨fun i => (y i).map fs.transpose, ?_, fun i => ?_⟩
  · unfold Fields.readSliced
    rw [h1]
    rfl
  · show (y i).map fs.transpose = _
    rcases Nat.lt_or_ge i rows.length with hi | hi
    · rw [h2 i hi, Option.map_some, Fields.transpose_slicesOf hf hne, List.getElem?_map, List.getElem?_eq_getElem hi]
      rfl
    · rw [h3 hne i hi, List.getElem?_eq_none (by rw [List.length_map]; exact hi)]
      rfl

end

/-- A structure whose two fields are read from the same branch. -/
def demoSliced : Fields :=
  .cons { name := b! "x" } (.leaf .i32) (.cons { name := b! "y", rename := some (b! "x") } (.leaf .i32) .nil)

/-- Entries of two, none and four structures. -/
def demoSlicedRows : List (List demoSliced.Val) := demoArrays.map fun l => l.map fun v => (v, v, ())

/-- The hypotheses of `C57_slices` can be met. -/
example : demoSliced.Flat ∧ demoSliced ≠ .nil ∧ demoSlicedRows.map List.length = [2, 0, 4] ∧
    ∀ c ∈ demoSliced.storedSlices none none demoSlicedRows,
      HoldingSlices (demoArrayReader demoArrays) [demoArrayBranch demoArrays] c := by
  refine ⟨trivial, (by intro h; cases h), rfl, fun c hc => ?_⟩
  have e : demoSliced.storedSlices none none demoSlicedRows =
      [⟨.i32, b! "x", demoArrays⟩, ⟨.i32, b! "x", demoArrays⟩] := rfl
  rw [e] at hc
  have hc : c = ⟨.i32, b! "x", demoArrays⟩ := by
    simp only [List.mem_cons, List.not_mem_nil, or_false] at hc
    exact hc.elim id id
  subst hc
  refine ⟨demoArrayBranch demoArrays, true, rfl, ?_⟩
  have : Except.toOption (((demoArrayBranch demoArrays).asIter (demoArrayReader demoArrays) true
      (some (sliceClassNames .i32)) (Rd.slice Ty.i32.unmarshal) : Res (List (List Int)))) = some demoArrays := by
    decide +kernel
  generalize Branch.asIter _ _ _ _ _ = x at this ⊢
  cases x with
  | error e => cases this
  | ok l => exact congrArg Except.ok (Option.some.inj this)

theorem collect_panic {α} {xs : List (Res α)} (h : ∀ x ∈ xs, (∃ a, x = .ok a) ∨ x = .error .panic)
    (he : .error .panic ∈ xs) : collect xs = .error .panic := by
  induction xs with
  | nil => cases he
  | cons x xs ih =>
    show (do let a ← x; let as ← collect xs; pure (a :: as)) = _
    rcases h x List.mem_cons_self with ⟨a, rfl⟩ | rfl
    · rcases List.mem_cons.1 he with he | he
      · cases he
      · rw [ih (fun y hy => h y (List.mem_cons_of_mem _ hy)) he]
        rfl
    · rfl

theorem collect_two {α β : Type} {xs : List α} {ys : List β} {f : Nat → Res (α × β × Unit)}
    (hf : ∀ i, f i = match xs[i]?, ys[i]? with
      | some x, some y => .ok (x, y, ())
      | _, _ => .error .panic) :
    collect ((List.range ys.length).map f) =
      if ys.length ≤ xs.length then .ok ((xs.zip ys).map fun p => (p.1, p.2, ())) else .error .panic := by
  split
  · rename_i hle
    refine collect_ok ?_
    refine List.ext_getElem (by simp; omega) fun i h1 h2 => ?_
    have hy : i < ys.length := by simpa using h1
    rw [List.getElem_map, List.getElem_range, hf, List.getElem?_eq_getElem hy,
      List.getElem?_eq_getElem (show i < xs.length by omega)]
    simp
  · rename_i hlt
    refine collect_panic (fun x hx => ?_) ?_
    · obtain ⟨i, -, rfl⟩ := List.mem_map.1 hx
      rw [hf]
      cases xs[i]? <;> cases ys[i]? <;> simp
    · refine List.mem_map.2 ⟨xs.length, by simp; omega, ?_⟩
      rw [hf, List.getElem?_eq_none (Nat.le_refl _)]

/-- C57 when the slices of an entry have different lengths, for two fields: if the last one is longer than the
other the program aborts, and otherwise there are as many structures as the last one has items, the
items of the other that are left over being lost. -/
theorem C57_uneven (o o' : FieldOpts) (t t' : Ty) (xs : List t.Val) (ys : List t'.Val) :
    (Fields.cons o (.leaf t) (.cons o' (.leaf t') .nil)).transpose (xs, ys, ()) =
      if ys.length ≤ xs.length then .ok ((xs.zip ys).map fun p => (p.1, p.2, ())) else .error .panic := by
  have hpick : ∀ i, (Fields.cons o (.leaf t) (.cons o' (.leaf t') .nil)).pick (xs, ys, ()) i =
      match xs[i]?, ys[i]? with
      | some x, some y => .ok (x, y, ())
      | _, _ => .error .panic := by
    intro i
    show (match xs[i]? with
      | none => (.error .panic : Res (t.Val × t'.Val × Unit))
      | some v => do
        let vs ← (match ys[i]? with
          | none => (.error .panic : Res (t'.Val × Unit))
          | some w => do
            let ws ← .ok ()
            pure (w, ws))
        pure (v, vs)) = _
    cases xs[i]? <;> cases ys[i]? <;> rfl
  exact collect_two (α := t.Val) (β := t'.Val) (xs := xs) (ys := ys) fun i =>
    (hpick i).trans (by cases xs[i]? <;> cases ys[i]? <;> rfl)

end Verif
